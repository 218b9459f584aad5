import Verif.Spec.Visit
/-! Helper lemmas for the `Visit` model: loop invariants of the copy-on-write loops. -/

namespace Verif

@[simp] theorem vm_bind (x : VM σ α) (f : α → VM σ β) (h : Heap) (s : σ) :
    (x >>= f) h s = (x h s >>= fun r => f r.1 r.2.1 r.2.2) := rfl
@[simp] theorem vm_pure (a : α) (h : Heap) (s : σ) : (pure a : VM σ α) h s = .ok (a, h, s) := rfl
@[simp] theorem vm_panic (h : Heap) (s : σ) : (vpanic : VM σ α) h s = .panic := rfl
@[simp] theorem allocArr_app (l : List Slot) (h : Heap) (s : σ) :
    allocArr l h s = .ok (h.length, h ++ [.arr l], s) := rfl
@[simp] theorem allocNode_app (n : Node) (h : Heap) (s : σ) :
    allocNode n h s = .ok (some h.length, h ++ [.node n], s) := rfl
theorem callVisit_app (f : Visitor σ) (p : Ptr) (h : Heap) (s : σ) :
    callVisit f.run p h s = (f p s >>= fun r => .ok (r.1, h, r.2)) := rfl
theorem callVisit_ok {f : Visitor σ} {p q : Ptr} {s s' : σ} (hf : f p s = .ok (q, s')) (h : Heap) :
    callVisit f.run p h s = .ok (q, h, s') := by simp [callVisit_app, hf]
@[simp] theorem checkHeap_app (t : Heap → Bool) (h : Heap) (s : σ) :
    checkHeap t h s = .ok (t h, h, s) := rfl
theorem readArr_ok {h : Heap} {a : Addr} {l : List Slot} (hl : Holds h a l) (s : σ) :
    readArr a h s = .ok (l, h, s) := by unfold readArr; rw [hl]
theorem readNode_ok {h : Heap} {a : Addr} {n : Node} (hl : h[a]? = some (.node n)) (s : σ) :
    readNode a h s = .ok (n, h, s) := by unfold readNode; rw [hl]

/-- Visiting an element is rewriting it, without touching the heap. -/
def ElemOk (elem : Slot → VM σ Slot) (f : Visitor σ) (x : Slot) : Prop :=
  ∀ h s, elem x h s = (x.rewrite f s >>= fun r => .ok (r.1, h, r.2))

theorem bind_assoc' (x : Res α) (f : α → Res β) (g : β → Res γ) :
    ((x >>= f) >>= g) = (x >>= fun a => f a >>= g) := by cases x <;> rfl

theorem ptrElem_ok (f : Visitor σ) (l : List Slot) (hk : AllPtr l) :
    ∀ x ∈ l, ElemOk (ptrElem f.run) f x := by
  intro x hx h s
  obtain ⟨p, rfl⟩ := hk x hx
  simp [ptrElem, Slot.rewrite, callVisit_app, bind_assoc']

theorem pairElem_ok (f : Visitor σ) (l : List Slot) (hk : AllPair l) :
    ∀ x ∈ l, ElemOk (pairElem f.run) f x := by
  intro x hx h s
  obtain ⟨p, q, rfl⟩ := hk x hx
  simp [pairElem, Slot.rewrite, callVisit_app, bind_assoc']

theorem argElem_ok (f : Visitor σ) (l : List Slot) (hk : AllArg l) :
    ∀ x ∈ l, ElemOk (argElem f.run) f x := by
  intro x hx h s
  obtain ⟨a, rfl⟩ := hk x hx
  cases a with
  | expr a =>
    simp only [argElem, Slot.rewrite, vm_bind, callVisit_app, bind_assoc']
    cases f (some a) s with
    | ok r => obtain ⟨_ | _, _⟩ := r <;> rfl
    | err => rfl
    | panic => rfl
  | other t => simp [argElem, Slot.rewrite]

theorem writeSlot_last (h : Heap) (pre tail : List Slot) (y x : Slot) (i : Nat)
    (hi : pre.length = i) (s : σ) :
    writeSlot h.length i x (h ++ [.arr (pre ++ y :: tail)]) s
      = .ok ((), h ++ [.arr (pre ++ x :: tail)], s) := by
  subst hi
  simp [writeSlot]

theorem rewriteRow_length {f : Visitor σ} {xs ys : List Slot} {s s' : σ}
    (hr : rewriteRow f xs s = .ok (ys, s')) : ys.length = xs.length := by
  induction xs generalizing ys s with
  | nil => simp [rewriteRow] at hr; simp [hr.1]
  | cons x xs ih =>
    simp only [rewriteRow, Res.bind_eq_ok] at hr
    obtain ⟨r, _, ⟨zs, s2⟩, h2, h3⟩ := hr
    simp only [Res.ok.injEq, Prod.mk.injEq] at h3
    obtain ⟨h3, rfl⟩ := h3
    simp [← h3, ih h2]

theorem rewriteRow_cons {f : Visitor σ} {x : Slot} {xs ys : List Slot} {s s' : σ}
    (hr : rewriteRow f (x :: xs) s = .ok (ys, s')) :
    ∃ y s1 ys', x.rewrite f s = .ok (y, s1) ∧ rewriteRow f xs s1 = .ok (ys', s') ∧ ys = y :: ys' := by
  simp only [rewriteRow, Res.bind_eq_ok] at hr
  obtain ⟨⟨y, s1⟩, h1, ⟨ys', s2⟩, h2, h3⟩ := hr
  simp only [Res.ok.injEq, Prod.mk.injEq] at h3
  obtain ⟨rfl, rfl⟩ := h3
  exact ⟨y, s1, ys', h1, h2, rfl⟩

/-- Once there is an output array (the last cell), the loop stores every visited element. -/
theorem cow_some {f : Visitor σ} {elem : Slot → VM σ Slot} {alloc : Nat → VM σ Addr}
    {ok : Slot → Bool} (h : Heap) :
    ∀ (xs ys pre tail : List Slot) (i : Nat) (s s' : σ),
      (∀ x ∈ xs, ElemOk elem f x) → (∀ y ∈ ys, ok y = true) → pre.length = i →
      tail.length = xs.length → rewriteRow f xs s = .ok (ys, s') →
      cowLoop elem alloc (fun _ => ok) xs i (some h.length) (h ++ [.arr (pre ++ tail)]) s
        = .ok (some h.length, h ++ [.arr (pre ++ ys)], s') := by
  intro xs
  induction xs with
  | nil =>
    intro ys pre tail i s s' _ _ _ ht hr
    simp [rewriteRow] at hr
    obtain ⟨rfl, rfl⟩ := hr
    have : tail = [] := by simpa using ht
    simp [cowLoop, this]
  | cons x xs ih =>
    intro ys pre tail i s s' he ho hp ht hr
    obtain ⟨y, s1, ys', h1, h2, rfl⟩ := rewriteRow_cons hr
    cases tail with
    | nil => simp at ht
    | cons t tail =>
      have hy : ok y = true := ho y (by simp)
      have := ih ys' (pre ++ [y]) tail (i + 1) s1 s' (fun x hx => he x (by simp [hx]))
        (fun z hz => ho z (by simp [hz])) (by simp [hp]) (by simpa using ht) h2
      simp only [List.append_assoc, List.singleton_append] at this
      simp only [cowLoop, vm_bind, he x (by simp) _ s, h1, Res.ok_bind, vm_pure, checkHeap_app, hy, if_true,
        writeSlot_last h pre tail t y i hp, this]

/-- Without an output array, the loop either finds nothing changed, or makes one and fills it. -/
theorem cow_none {f : Visitor σ} {elem : Slot → VM σ Slot} {alloc : Nat → VM σ Addr}
    {ok : Slot → Bool} (h : Heap) (l : List Slot)
    (hal : ∀ i s, i ≤ l.length → ∃ tail, tail.length = l.length - i ∧
      alloc i h s = .ok (h.length, h ++ [.arr (l.take i ++ tail)], s)) :
    ∀ (xs ys pre : List Slot) (s s' : σ), l = pre ++ xs →
      (∀ x ∈ xs, ElemOk elem f x) → (ys ≠ xs → ∀ y ∈ ys, ok y = true) →
      rewriteRow f xs s = .ok (ys, s') →
      cowLoop elem alloc (fun _ => ok) xs pre.length none h s
        = (if ys = xs then .ok (none, h, s')
           else .ok (some h.length, h ++ [.arr (pre ++ ys)], s')) := by
  intro xs
  induction xs with
  | nil =>
    intro ys pre s s' _ _ _ hr
    simp [rewriteRow] at hr
    obtain ⟨rfl, rfl⟩ := hr
    simp [cowLoop]
  | cons x xs ih =>
    intro ys pre s s' hl he ho hr
    obtain ⟨y, s1, ys', h1, h2, rfl⟩ := rewriteRow_cons hr
    by_cases hxy : y = x
    · subst hxy
      have := ih ys' (pre ++ [y]) s1 s' (by simp [hl]) (fun x hx => he x (by simp [hx]))
        (fun hne z hz => ho (by simpa using hne) z (by simp [hz])) h2
      simp only [List.length_append, List.length_singleton, List.append_assoc,
        List.singleton_append] at this
      simp only [cowLoop, vm_bind, he y (by simp) _ s, h1, Res.ok_bind, ne_eq, not_true,
        if_false, vm_pure, this, List.cons.injEq, true_and]
    · have hok := ho (by simp [hxy])
      obtain ⟨tail, ht, ha⟩ := hal pre.length s1 (by simp [hl])
      have htk : l.take pre.length = pre := by simp [hl]
      rw [htk] at ha
      cases tail with
      | nil => simp [hl] at ht
      | cons t tail =>
        have hcs := cow_some (alloc := alloc) (ok := ok) h xs ys' (pre ++ [y]) tail (pre.length + 1) s1 s'
          (fun x hx => he x (by simp [hx])) (fun z hz => hok z (by simp [hz])) (by simp)
          (by simp [hl] at ht; omega) h2
        simp only [List.append_assoc, List.singleton_append] at hcs
        have hy : ok y = true := hok y (by simp)
        simp only [cowLoop, vm_bind, he x (by simp) _ s, h1, Res.ok_bind, ne_eq, hxy,
          not_false_iff, if_true, vm_pure, ha, checkHeap_app, hy, writeSlot_last h pre tail t y _ rfl, hcs,
          List.cons.injEq, false_and, if_false]

theorem makeCopy_spec (zero : Slot) (l : List Slot) (h : Heap) (i : Nat) (s : σ) (_ : i ≤ l.length) :
    ∃ tail, tail.length = l.length - i ∧
      makeCopy zero l i h s = .ok (h.length, h ++ [.arr (l.take i ++ tail)], s) :=
  ⟨List.replicate (l.length - i) zero, by simp, by simp [makeCopy]⟩

theorem clone_spec (l : List Slot) (h : Heap) (i : Nat) (s : σ) (_ : i ≤ l.length) :
    ∃ tail, tail.length = l.length - i ∧
      (fun _ : Nat => allocArr l) i h s = .ok (h.length, h ++ [.arr (l.take i ++ tail)], s) :=
  ⟨l.drop i, by simp, by simp⟩

/-- The whole loop of a method that copies only when something changes. -/
theorem cow_full {f : Visitor σ} {elem : Slot → VM σ Slot} {alloc : Nat → VM σ Addr}
    {ok : Slot → Bool} (h : Heap) (l ys : List Slot) (s s' : σ)
    (hal : ∀ i s, i ≤ l.length → ∃ tail, tail.length = l.length - i ∧
      alloc i h s = .ok (h.length, h ++ [.arr (l.take i ++ tail)], s))
    (he : ∀ x ∈ l, ElemOk elem f x) (ho : ys ≠ l → ∀ y ∈ ys, ok y = true)
    (hr : rewriteRow f l s = .ok (ys, s')) :
    cowLoop elem alloc (fun _ => ok) l 0 none h s
      = (if ys = l then .ok (none, h, s') else .ok (some h.length, h ++ [.arr ys], s')) := by
  simpa using cow_none h l hal l ys [] s s' rfl he ho hr

/-- The loop of a method that has already made an output array of the right length. -/
theorem cow_made {f : Visitor σ} {elem : Slot → VM σ Slot} {alloc : Nat → VM σ Addr}
    {ok : Slot → Bool} (h : Heap) (l ys tail : List Slot) (s s' : σ)
    (he : ∀ x ∈ l, ElemOk elem f x) (ho : ∀ y ∈ ys, ok y = true) (ht : tail.length = l.length)
    (hr : rewriteRow f l s = .ok (ys, s')) :
    cowLoop elem alloc (fun _ => ok) l 0 (some h.length) (h ++ [.arr tail]) s
      = .ok (some h.length, h ++ [.arr ys], s') := by
  simpa using cow_some h l ys [] tail 0 s s' he ho rfl ht hr

theorem rewriteRow_single {f : Visitor σ} {p : Ptr} {ys : List Slot} {s s' : σ}
    (hr : rewriteRow f [.ptr p] s = .ok (ys, s')) :
    ∃ q, f p s = .ok (q, s') ∧ ys = [.ptr q] := by
  obtain ⟨y, s1, ys', h1, h2, rfl⟩ := rewriteRow_cons hr
  simp only [Slot.rewrite, Res.bind_eq_ok, Res.ok.injEq, Prod.mk.injEq] at h1
  obtain ⟨⟨q, s2⟩, h3, rfl, rfl⟩ := h1
  simp [rewriteRow] at h2
  obtain ⟨rfl, rfl⟩ := h2
  exact ⟨q, h3, rfl⟩

theorem rewriteRows_cons {f : Visitor σ} {x : List Slot} {xs ys : List (List Slot)} {s s' : σ}
    (hr : rewriteRows f (x :: xs) s = .ok (ys, s')) :
    ∃ y s1 ys', rewriteRow f x s = .ok (y, s1) ∧ rewriteRows f xs s1 = .ok (ys', s') ∧
      ys = y :: ys' := by
  simp only [rewriteRows, Res.bind_eq_ok] at hr
  obtain ⟨⟨y, s1⟩, h1, ⟨ys', s2⟩, h2, h3⟩ := hr
  simp only [Res.ok.injEq, Prod.mk.injEq] at h3
  obtain ⟨rfl, rfl⟩ := h3
  exact ⟨y, s1, ys', h1, h2, rfl⟩

theorem rewriteRows_nil {f : Visitor σ} {ys : List (List Slot)} {s s' : σ}
    (hr : rewriteRows f [] s = .ok (ys, s')) : ys = [] ∧ s' = s := by
  simp [rewriteRows] at hr
  exact ⟨hr.1, hr.2.symm⟩

/-! ### kinds of elements are preserved -/

theorem allPtr_rewrite {f : Visitor σ} {xs ys : List Slot} {s s' : σ} (hk : AllPtr xs)
    (hr : rewriteRow f xs s = .ok (ys, s')) : AllPtr ys := by
  induction xs generalizing ys s with
  | nil => simp [rewriteRow] at hr; simp [AllPtr, hr.1]
  | cons x xs ih =>
    obtain ⟨y, s1, ys', h1, h2, rfl⟩ := rewriteRow_cons hr
    obtain ⟨p, rfl⟩ := hk x (by simp)
    simp only [Slot.rewrite, Res.bind_eq_ok, Res.ok.injEq, Prod.mk.injEq] at h1
    obtain ⟨⟨q, s2⟩, h3, rfl, rfl⟩ := h1
    intro z hz
    rcases List.mem_cons.1 hz with rfl | hz
    · exact ⟨_, rfl⟩
    · exact ih (fun x hx => hk x (by simp [hx])) h2 z hz

theorem allPair_rewrite {f : Visitor σ} {xs ys : List Slot} {s s' : σ} (hk : AllPair xs)
    (hr : rewriteRow f xs s = .ok (ys, s')) : AllPair ys := by
  induction xs generalizing ys s with
  | nil => simp [rewriteRow] at hr; simp [AllPair, hr.1]
  | cons x xs ih =>
    obtain ⟨y, s1, ys', h1, h2, rfl⟩ := rewriteRow_cons hr
    obtain ⟨p, q, rfl⟩ := hk x (by simp)
    simp only [Slot.rewrite, Res.bind_eq_ok, Res.ok.injEq, Prod.mk.injEq] at h1
    obtain ⟨⟨q, s2⟩, h3, ⟨q', s3⟩, h4, rfl, rfl⟩ := h1
    intro z hz
    rcases List.mem_cons.1 hz with rfl | hz
    · exact ⟨_, _, rfl⟩
    · exact ih (fun x hx => hk x (by simp [hx])) h2 z hz

theorem allArg_rewrite {f : Visitor σ} {xs ys : List Slot} {s s' : σ} (hk : AllArg xs)
    (hr : rewriteRow f xs s = .ok (ys, s')) : AllArg ys := by
  induction xs generalizing ys s with
  | nil => simp [rewriteRow] at hr; simp [AllArg, hr.1]
  | cons x xs ih =>
    obtain ⟨y, s1, ys', h1, h2, rfl⟩ := rewriteRow_cons hr
    have hy : ∃ a, y = .arg a := by
      obtain ⟨a, rfl⟩ := hk x (by simp)
      cases a with
      | expr a =>
        simp only [Slot.rewrite, Res.bind_eq_ok, Res.ok.injEq, Prod.mk.injEq] at h1
        obtain ⟨⟨q, s2⟩, h3, rfl, rfl⟩ := h1
        exact ⟨_, rfl⟩
      | other t =>
        simp only [Slot.rewrite, Res.ok.injEq, Prod.mk.injEq] at h1
        exact ⟨_, h1.1.symm⟩
    intro z hz
    rcases List.mem_cons.1 hz with rfl | hz
    · exact hy
    · exact ih (fun x hx => hk x (by simp [hx])) h2 z hz

/-! ### heaps -/

theorem Extends.refl (h : Heap) : Extends h h := ⟨[], by simp⟩
theorem Extends.app (h a : Heap) : Extends h (h ++ a) := ⟨a, rfl⟩
theorem Extends.trans {a b c : Heap} (h1 : Extends a b) (h2 : Extends b c) : Extends a c := by
  obtain ⟨x, rfl⟩ := h1
  obtain ⟨y, rfl⟩ := h2
  exact ⟨x ++ y, by simp⟩
theorem Extends.get {h h' : Heap} (he : Extends h h') {a : Addr} {c : Cell} (hc : h[a]? = some c) :
    h'[a]? = some c := by
  obtain ⟨x, rfl⟩ := he
  have : a < h.length := by
    rcases Nat.lt_or_ge a h.length with h1 | h1
    · exact h1
    · simp [List.getElem?_eq_none h1] at hc
  rw [List.getElem?_append_left this]
  exact hc
theorem extends_of_frame {h h' : Heap} (hf : ∀ a, a < h.length → h'[a]? = h[a]?) : Extends h h' := by
  refine ⟨h'.drop h.length, ?_⟩
  have : h = h'.take h.length := by
    apply List.ext_getElem?
    intro i
    rw [List.getElem?_take]
    by_cases hi : i < h.length
    · simp only [hi, if_true, hf i hi]
    · simp [hi]
  conv => lhs; rw [← List.take_append_drop h.length h']
  rw [← this]

/-! ### the option rows of `MultiOrList` -/

theorem writeRow_last {h : Heap} {opts : Addr} {slots : List Slot} {i : Nat}
    (ho : Holds h opts slots) (hs : slots[i]? = some (.row (some h.length)))
    (pre tail : List Slot) (y x : Slot) (j : Nat) (hj : pre.length = j) (s : σ) :
    writeRow opts i j x (h ++ [.arr (pre ++ y :: tail)]) s
      = .ok ((), h ++ [.arr (pre ++ x :: tail)], s) := by
  have h1 : Holds (h ++ [.arr (pre ++ y :: tail)]) opts slots := (Extends.app h _).get ho
  simp only [writeRow, readRow, vm_bind, readArr_ok h1, Res.ok_bind, hs, vm_pure]
  exact writeSlot_last h pre tail y x j hj s

theorem multiInner_some {f : Visitor σ} {value : List Slot} {rows : List (List Slot)} {i : Nat}
    {h : Heap} {v opts : Addr} {slots : List Slot} (ho : Holds h opts slots)
    (hs : slots[i]? = some (.row (some h.length))) :
    ∀ (xs ys pre tail : List Slot) (j : Nat) (s s' : σ), AllPtr xs → pre.length = j →
      tail.length = xs.length → rewriteRow f xs s = .ok (ys, s') →
      multiInner f.run value rows i xs j (some (v, opts)) (h ++ [.arr (pre ++ tail)]) s
        = .ok (some (v, opts), h ++ [.arr (pre ++ ys)], s') := by
  intro xs
  induction xs with
  | nil =>
    intro ys pre tail j s s' _ _ ht hr
    simp [rewriteRow] at hr
    obtain ⟨rfl, rfl⟩ := hr
    have : tail = [] := by simpa using ht
    simp [multiInner, this]
  | cons x xs ih =>
    intro ys pre tail j s s' hk hp ht hr
    obtain ⟨y, s1, ys', h1, h2, rfl⟩ := rewriteRow_cons hr
    cases tail with
    | nil => simp at ht
    | cons t tail =>
      have := ih ys' (pre ++ [y]) tail (j + 1) s1 s' (fun x hx => hk x (by simp [hx]))
        (by simp [hp]) (by simpa using ht) h2
      simp only [List.append_assoc, List.singleton_append] at this
      simp only [multiInner, vm_bind, ptrElem_ok f _ hk x (by simp) _ s, h1, Res.ok_bind, vm_pure,
        writeRow_last ho hs pre tail t y j hp, this]

theorem multiOuter_some {f : Visitor σ} {value : List Slot} {rows : List (List Slot)}
    {v opts : Addr} :
    ∀ (rs ys : List (List Slot)) (done : List Slot) (h : Heap) (s s' : σ),
      Holds h opts (done ++ List.replicate rs.length (.row none)) → (∀ r ∈ rs, AllPtr r) →
      rewriteRows f rs s = .ok (ys, s') →
      ∃ h' done', multiOuter f.run value rows rs done.length (some (v, opts)) h s
          = .ok (some (v, opts), h', s') ∧ Holds h' opts (done ++ done') ∧ HoldsRows h' done' ys ∧
        (∀ a, a < h.length → a ≠ opts → h'[a]? = h[a]?) ∧ h.length ≤ h'.length := by
  intro rs
  induction rs with
  | nil =>
    intro ys done h s s' ho _ hr
    obtain ⟨rfl, rfl⟩ := rewriteRows_nil hr
    exact ⟨h, [], by simp [multiOuter], by simpa using ho, .nil, fun _ _ _ => rfl, Nat.le_refl _⟩
  | cons r rs ih =>
    intro ys done h s s' ho hk hr
    obtain ⟨y, s1, ys', h1, h2, rfl⟩ := rewriteRows_cons hr
    have hlt : opts < h.length := by
      rcases Nat.lt_or_ge opts h.length with h1 | h1
      · exact h1
      · simp [Holds, List.getElem?_eq_none h1] at ho
    let slots := done ++ .row (some h.length) :: List.replicate rs.length (.row none)
    let h1' : Heap := h.set opts (.arr slots)
    have hlen : h1'.length = h.length := by simp [h1']
    have ho1 : Holds h1' opts slots := by simp [Holds, h1', hlt]
    have hmk : multiMakeRow r.length done.length (some (v, opts)) h s
        = .ok ((), h1' ++ [.arr (List.replicate r.length (.ptr none))], s) := by
      have ho2 := (Extends.app h [.arr (List.replicate r.length (.ptr none))]).get ho
      simp only [multiMakeRow, readRow, vm_bind, readArr_ok ho, Res.ok_bind, vm_pure, rowContents,
        List.length_cons, List.replicate_succ, List.length_nil, if_true, allocArr_app]
      simp only [List.getElem?_append_right (Nat.le_refl _), Nat.sub_self, List.getElem?_cons_zero,
        vm_pure, Res.ok_bind, List.length_nil, if_true, vm_bind, allocArr_app]
      unfold writeSlot
      rw [ho2]
      simp [List.replicate_succ, h1', slots, List.set_append_left, hlt]
    have hin := multiInner_some (f := f) (value := value) (rows := rows) (i := done.length)
      (v := v) ho1 (by simp [slots, hlen]) r y [] (List.replicate r.length (.ptr none)) 0 s s1
      (hk r (by simp)) rfl (by simp) h1
    simp only [List.nil_append] at hin
    have ho3 : Holds (h1' ++ [.arr y]) opts
        ((done ++ [.row (some h.length)]) ++ List.replicate rs.length (.row none)) := by
      have := (Extends.app h1' [.arr y]).get ho1
      simpa [slots, Holds] using this
    obtain ⟨h', done', e1, e2, e3, e4, e5⟩ := ih ys' (done ++ [.row (some h.length)])
      (h1' ++ [.arr y]) s1 s' ho3 (fun r hr => hk r (by simp [hr])) h2
    refine ⟨h', .row (some h.length) :: done', ?_, by simpa using e2, ?_, ?_, ?_⟩
    · simp only [List.length_append, List.length_singleton] at e1
      simp only [multiOuter, vm_bind, hmk, Res.ok_bind, hin, e1]
    · refine .cons _ _ _ _ ?_ e3
      have := e4 h.length (by simp [hlen]) (Nat.ne_of_gt hlt)
      simp only [HoldsRow, Holds, this]
      simp [hlen.symm]
    · intro a ha hne
      rw [e4 a (by simp [hlen]; omega) hne]
      rw [List.getElem?_append_left (by simp [hlen, ha])]
      simp [h1', List.getElem?_set, Ne.symm hne]
    · simp [hlen] at e5; omega

/-- No change in the options: no output. -/
theorem multiInner_none {f : Visitor σ} {value : List Slot} {rows : List (List Slot)} {i : Nat}
    {h : Heap} : ∀ (xs : List Slot) (j : Nat) (s s' : σ), AllPtr xs →
      rewriteRow f xs s = .ok (xs, s') →
      multiInner f.run value rows i xs j none h s = .ok (none, h, s') := by
  intro xs
  induction xs with
  | nil =>
    intro j s s' _ hr
    simp [rewriteRow] at hr
    simp [multiInner, hr]
  | cons x xs ih =>
    intro j s s' hk hr
    obtain ⟨y, s1, ys', h1, h2, h3⟩ := rewriteRow_cons hr
    simp only [List.cons.injEq] at h3
    obtain ⟨rfl, rfl⟩ := h3
    simp only [multiInner, vm_bind, ptrElem_ok f _ hk x (by simp) _ s, h1, Res.ok_bind, vm_pure,
      ne_eq, not_true, if_false, ih (j + 1) s1 s' (fun x hx => hk x (by simp [hx])) h2]

theorem multiOuter_none {f : Visitor σ} {value : List Slot} {rows : List (List Slot)} {h : Heap} :
    ∀ (rs : List (List Slot)) (i : Nat) (s s' : σ), (∀ r ∈ rs, AllPtr r) →
      rewriteRows f rs s = .ok (rs, s') →
      multiOuter f.run value rows rs i none h s = .ok (none, h, s') := by
  intro rs
  induction rs with
  | nil =>
    intro i s s' _ hr
    simp [rewriteRows] at hr
    simp [multiOuter, hr]
  | cons r rs ih =>
    intro i s s' hk hr
    obtain ⟨y, s1, ys', h1, h2, h3⟩ := rewriteRows_cons hr
    simp only [List.cons.injEq] at h3
    obtain ⟨rfl, rfl⟩ := h3
    simp only [multiOuter, multiMakeRow, vm_bind, vm_pure, Res.ok_bind,
      multiInner_none r 0 s s1 (hk r (by simp)) h1, ih (i + 1) s1 s' (fun r hr => hk r (by simp [hr])) h2]

theorem readRows_ok {h : Heap} {os : List Slot} {rows : List (List Slot)} (hr : HoldsRows h os rows)
    (s : σ) : readRows os h s = .ok (rows, h, s) := by
  induction hr with
  | nil => rfl
  | cons x ss l ls h1 h2 ih =>
    match x, h1 with
    | .row none, h1 =>
      simp only [HoldsRow] at h1
      simp [readRows, rowContents, ih, h1]
    | .row (some a), h1 =>
      simp [readRows, rowContents, readArr_ok h1, ih]

theorem HoldsRows.length {h : Heap} {os : List Slot} {rows : List (List Slot)}
    (hr : HoldsRows h os rows) : os.length = rows.length := by
  induction hr with
  | nil => rfl
  | cons _ _ _ _ _ _ ih => simp [ih]

theorem HoldsRows.extend {h h' : Heap} (he : Extends h h') {os : List Slot} {rows : List (List Slot)}
    (hr : HoldsRows h os rows) : HoldsRows h' os rows := by
  induction hr with
  | nil => exact .nil
  | cons x ss l ls h1 h2 ih =>
    refine .cons _ _ _ _ ?_ ih
    match x, h1 with
    | .row none, h1 => exact h1
    | .row (some a), h1 => exact he.get h1

theorem view_rewrite_ok {f : Visitor σ} {v v' : View} {s s' : σ} (hn : v.NoHidden)
    (hr : v.rewrite f s = .ok (v', s')) :
    rewriteRows f v.rows s = .ok (v'.rows, s') ∧ v'.head = v.head := by
  obtain ⟨hd, rows⟩ := v
  simp only [View.rewrite, Res.bind_eq_ok, Res.ok.injEq, Prod.mk.injEq] at hr
  obtain ⟨⟨rows', s1⟩, h1, rfl, rfl⟩ := hr
  refine ⟨h1, ?_⟩
  cases hd with
  | fieldRef root seg => cases root <;> simp [View.NoHidden] at hn ⊢
  | _ => rfl

/-- What C17 asks of one call. -/
def VisitedAs (isLit : Ptr → Bool) (f : Visitor σ) (e : Addr) (h : Heap) (s : σ) (v v' : View)
    (s' : σ) : Prop :=
  ∃ p h', visit (fun _ => isLit) f.run e h s = .ok (some p, h', s') ∧ Extends h h' ∧ Shows h' p v' ∧
    (v' = v → p = e ∧ h' = h)

theorem visited_leaf {isLit : Ptr → Bool} {f : Visitor σ} {e : Addr} {h : Heap} {s s' : σ}
    {v v' : View} (hs : Shows h e v) (hv : v' = v) (hss : s' = s)
    (hx : visit (fun _ => isLit) f.run e h s = .ok (some e, h, s)) : VisitedAs isLit f e h s v v' s' := by
  subst hv hss
  exact ⟨e, h, hx, .refl h, hs, fun _ => ⟨rfl, rfl⟩⟩

/-- A method with one slice of children, copied on the first change. -/
theorem visited_slice {isLit : Ptr → Bool} {f : Visitor σ} {e : Addr} {h : Heap} {s s' : σ}
    {hd : Head} {l ys : List Slot} {elem : Slot → VM σ Slot} {alloc : Nat → VM σ Addr}
    {mk : Addr → Node} (hs : Shows h e ⟨hd, [l]⟩)
    (hx : visit (fun _ => isLit) f.run e h s = (cowLoop elem alloc (fun _ _ => true) l 0 none >>= fun out =>
      match out with
      | none => pure (some e)
      | some a => allocNode (mk a)) h s)
    (hal : ∀ i s, i ≤ l.length → ∃ tail, tail.length = l.length - i ∧
      alloc i h s = .ok (h.length, h ++ [.arr (l.take i ++ tail)], s))
    (he : ∀ x ∈ l, ElemOk elem f x) (hr : rewriteRow f l s = .ok (ys, s'))
    (hsh : ∀ h' a p, Holds h' a ys → h'[p]? = some (.node (mk a)) → Shows h' p ⟨hd, [ys]⟩) :
    VisitedAs isLit f e h s ⟨hd, [l]⟩ ⟨hd, [ys]⟩ s' := by
  have hc := cow_full (ok := fun _ => true) h l ys s s' hal he (by simp) hr
  unfold VisitedAs
  rw [hx]
  simp only [vm_bind, hc]
  by_cases hy : ys = l
  · subst hy
    exact ⟨e, h, by simp, .refl h, hs, fun _ => ⟨rfl, rfl⟩⟩
  · refine ⟨h.length + 1, h ++ [.arr ys, .node (mk h.length)], by simp [hy], .app h _, ?_, ?_⟩
    · exact hsh _ h.length _ (by simp [Holds]) (by simp [List.getElem?_append_right])
    · simp [hy]

/-- A method with a single child. -/
theorem visited_single {isLit : Ptr → Bool} {f : Visitor σ} {e : Addr} {h : Heap} {s s' : σ}
    {hd : Head} {p q : Ptr} {mk : Ptr → Node} (hs : Shows h e ⟨hd, [[.ptr p]]⟩)
    (hx : visit (fun _ => isLit) f.run e h s = (callVisit f.run p >>= fun q =>
      if q = p then pure (some e) else allocNode (mk q)) h s)
    (hr : f p s = .ok (q, s'))
    (hsh : ∀ h' a, h'[a]? = some (.node (mk q)) → Shows h' a ⟨hd, [[.ptr q]]⟩) :
    VisitedAs isLit f e h s ⟨hd, [[.ptr p]]⟩ ⟨hd, [[.ptr q]]⟩ s' := by
  unfold VisitedAs
  rw [hx]
  simp only [vm_bind, callVisit_ok hr, Res.ok_bind]
  by_cases hq : q = p
  · subst hq
    exact ⟨e, h, by simp, .refl h, hs, fun _ => ⟨rfl, rfl⟩⟩
  · refine ⟨h.length, h ++ [.node (mk q)], by simp [hq], .app h _, hsh _ _ (by simp), by simp [hq]⟩

theorem visited_ifThen {isLit : Ptr → Bool} {f : Visitor σ} {e ifs : Addr} {els q : Ptr} {h : Heap}
    {s s1 s' : σ} {l ys : List Slot} (hn : h[e]? = some (.node (.ifThen ifs els)))
    (hl : Holds h ifs l) (hk : AllPair l) (h1 : rewriteRow f l s = .ok (ys, s1))
    (h2 : f els s1 = .ok (q, s')) :
    VisitedAs isLit f e h s ⟨.ifThen, [l, [.ptr els]]⟩ ⟨.ifThen, [ys, [.ptr q]]⟩ s' := by
  have hc := cow_full (ok := fun _ => true) (alloc := fun _ => allocArr l) h l ys s s1
    (fun i s hi => clone_spec l h i s hi) (pairElem_ok f l hk) (by simp) h1
  have hk' := allPair_rewrite hk h1
  unfold VisitedAs
  simp only [visit, vm_bind, readNode_ok hn, Res.ok_bind, visitIfThen, readArr_ok hl, hc]
  by_cases hy : ys = l
  · subst hy
    by_cases hq : q = els
    · subst hq
      exact ⟨e, h, by simp [callVisit_ok h2], .refl h, .ifThen _ _ _ _ hn hl hk, by simp⟩
    · refine ⟨h.length + 1, h ++ [.arr ys, .node (.ifThen h.length q)],
        by simp [callVisit_ok h2, hq], .app h _, ?_, by simp [hq]⟩
      exact .ifThen _ h.length _ _ (by simp [List.getElem?_append_right]) (by simp [Holds]) hk
  · refine ⟨h.length + 1, h ++ [.arr ys, .node (.ifThen h.length q)],
      by simp [callVisit_ok h2, hy], .app h _, ?_, by simp [hy]⟩
    exact .ifThen _ h.length _ _ (by simp [List.getElem?_append_right]) (by simp [Holds]) hk'

theorem litCheck_const (isLit : Ptr → Bool) :
    litCheck (fun _ => isLit) = fun _ => litCheck (fun _ => isLit) [] := by
  funext h x; cases x <;> rfl

theorem visited_switch {isLit : Ptr → Bool} {f : Visitor σ} {e ifs : Addr} {m m' els q : Ptr}
    {h : Heap} {s s0 s1 s' : σ} {l ys : List Slot} (hn : h[e]? = some (.node (.switch m ifs els)))
    (hl : Holds h ifs l) (hk : AllPair l) (h0 : f m s = .ok (m', s0))
    (h1 : rewriteRow f l s0 = .ok (ys, s1)) (h2 : f els s1 = .ok (q, s'))
    (hlit : (m' = m ∧ ys = l ∧ q = els) ∨ ∀ a b, Slot.pair a b ∈ ys → isLit a = true) :
    VisitedAs isLit f e h s ⟨.switch, [[.ptr m], l, [.ptr els]]⟩
      ⟨.switch, [[.ptr m'], ys, [.ptr q]]⟩ s' := by
  have hk' := allPair_rewrite hk h1
  have hlit' : (m' ≠ m ∨ ys ≠ l) → ∀ y ∈ ys, litCheck (fun _ => isLit) [] y = true := by
    intro hne y hy
    rcases hlit with ⟨h3, h4, _⟩ | hlit
    · simp [h3, h4] at hne
    · obtain ⟨a, b, rfl⟩ := hk' y hy
      exact hlit a b hy
  unfold VisitedAs
  simp only [visit, vm_bind, readNode_ok hn, Res.ok_bind, visitSwitch, readArr_ok hl,
    callVisit_ok h0]
  rw [litCheck_const]
  by_cases hm : m' = m
  · subst hm
    have hc := cow_full (ok := litCheck (fun _ => isLit) []) (alloc := makeCopy (.pair none none) l) h l ys s0 s1
      (fun i s hi => makeCopy_spec _ l h i s hi) (pairElem_ok f l hk) (fun hy => hlit' (.inr hy)) h1
    simp only [ne_eq, not_true, if_false, vm_pure, Res.ok_bind, hc]
    by_cases hy : ys = l
    · subst hy
      by_cases hq : q = els
      · subst hq
        exact ⟨e, h, by simp [callVisit_ok h2], .refl h, .switch _ _ _ _ _ hn hl hk, by simp⟩
      · refine ⟨h.length + 1, h ++ [.arr ys, .node (.switch m' h.length q)],
          by simp [callVisit_ok h2, hq], .app h _, ?_, by simp [hq]⟩
        exact .switch _ _ h.length _ _ (by simp [List.getElem?_append_right]) (by simp [Holds]) hk
    · refine ⟨h.length + 1, h ++ [.arr ys, .node (.switch m' h.length q)],
        by simp [callVisit_ok h2, hy], .app h _, ?_, by simp [hy]⟩
      exact .switch _ _ h.length _ _ (by simp [List.getElem?_append_right]) (by simp [Holds]) hk'
  · have hc := cow_made (ok := litCheck (fun _ => isLit) []) (alloc := makeCopy (.pair none none) l) h l ys
      (List.replicate l.length (.pair none none)) s0 s1 (pairElem_ok f l hk) (hlit' (.inl hm))
      (by simp) h1
    refine ⟨h.length + 1, h ++ [.arr ys, .node (.switch m' h.length q)],
      by simp [callVisit_ok h2, hm, hc], .app h _, ?_, by simp [hm]⟩
    exact .switch _ _ h.length _ _ (by simp [List.getElem?_append_right]) (by simp [Holds]) hk'

theorem visited_singularOr {isLit : Ptr → Bool} {f : Visitor σ} {e o : Addr} {m m' : Ptr}
    {h : Heap} {s s0 s' : σ} {l ys : List Slot} (hn : h[e]? = some (.node (.singularOr m o)))
    (hl : Holds h o l) (hk : AllPtr l) (h0 : f m s = .ok (m', s0))
    (h1 : rewriteRow f l s0 = .ok (ys, s')) :
    VisitedAs isLit f e h s ⟨.singularOr, [[.ptr m], l]⟩ ⟨.singularOr, [[.ptr m'], ys]⟩ s' := by
  have hk' := allPtr_rewrite hk h1
  unfold VisitedAs
  simp only [visit, vm_bind, readNode_ok hn, Res.ok_bind, visitSingularOr, readArr_ok hl,
    callVisit_ok h0]
  by_cases hm : m' = m
  · subst hm
    have hc := cow_full (ok := fun _ => true) (alloc := makeCopy (.ptr none) l) h l ys s0 s'
      (fun i s hi => makeCopy_spec _ l h i s hi) (ptrElem_ok f l hk) (by simp) h1
    simp only [ne_eq, not_true, if_false, vm_pure, Res.ok_bind, hc]
    by_cases hy : ys = l
    · subst hy
      exact ⟨e, h, by simp, .refl h, .singularOr _ _ _ _ hn hl hk, by simp⟩
    · refine ⟨h.length + 1, h ++ [.arr ys, .node (.singularOr m' h.length)],
        by simp [hy], .app h _, ?_, by simp [hy]⟩
      exact .singularOr _ _ h.length _ (by simp [List.getElem?_append_right]) (by simp [Holds]) hk'
  · have hc := cow_made (ok := fun _ => true) (alloc := makeCopy (.ptr none) l) h l ys
      (List.replicate l.length (.ptr none)) s0 s' (ptrElem_ok f l hk) (by simp) (by simp) h1
    refine ⟨h.length + 1, h ++ [.arr ys, .node (.singularOr m' h.length)],
      by simp [hm, hc], .app h _, ?_, by simp [hm]⟩
    exact .singularOr _ _ h.length _ (by simp [List.getElem?_append_right]) (by simp [Holds]) hk'

theorem rewriteRows_allPtr {f : Visitor σ} {rs ys : List (List Slot)} {s s' : σ}
    (hk : ∀ r ∈ rs, AllPtr r) (hr : rewriteRows f rs s = .ok (ys, s')) : ∀ r ∈ ys, AllPtr r := by
  induction rs generalizing ys s with
  | nil =>
    obtain ⟨rfl, _⟩ := rewriteRows_nil hr
    simp
  | cons x xs ih =>
    obtain ⟨y, s1, ys', h1, h2, rfl⟩ := rewriteRows_cons hr
    intro r hr
    rcases List.mem_cons.1 hr with rfl | hr
    · exact allPtr_rewrite (hk x (by simp)) h1
    · exact ih (fun r hr => hk r (by simp [hr])) h2 r hr

theorem visited_multiOr {isLit : Ptr → Bool} {f : Visitor σ} {e va o : Addr} {h : Heap}
    {s s1 s' : σ} {l ys os : List Slot} {rows rows' : List (List Slot)}
    (hn : h[e]? = some (.node (.multiOr va o))) (hv : Holds h va l) (hk : AllPtr l)
    (ho : Holds h o os) (hr : HoldsRows h os rows) (hkr : ∀ r ∈ rows, AllPtr r)
    (h1 : rewriteRow f l s = .ok (ys, s1)) (h2 : rewriteRows f rows s1 = .ok (rows', s'))
    (hopt : (ys = l ∧ rows' = rows) ∨ ys ≠ l) :
    VisitedAs isLit f e h s ⟨.multiOr, l :: rows⟩ ⟨.multiOr, ys :: rows'⟩ s' := by
  have hc := cow_full (ok := fun _ => true) (alloc := makeCopy (.ptr none) l) h l ys s s1
    (fun i s hi => makeCopy_spec _ l h i s hi) (ptrElem_ok f l hk) (by simp) h1
  unfold VisitedAs
  simp only [visit, vm_bind, readNode_ok hn, Res.ok_bind, visitMultiOr, readArr_ok hv,
    readArr_ok ho, readRows_ok hr, hc]
  rcases hopt with ⟨rfl, rfl⟩ | hy
  · exact ⟨e, h, by simp [multiOuter_none _ 0 s1 s' hkr h2], .refl h,
      .multiOr _ _ _ _ _ _ hn hv hk ho hr hkr, by simp⟩
  · have hho : Holds (h ++ [.arr ys, .arr (List.replicate rows.length (.row none))]) (h.length + 1)
        ([] ++ List.replicate rows.length (.row none)) := by
      simp [Holds, List.getElem?_append_right]
    obtain ⟨h', done', e1, e2, e3, e4, e5⟩ := multiOuter_some (value := l) (rows := rows)
      (v := h.length) rows rows' [] _ s1 s' hho hkr h2
    refine ⟨h'.length, h' ++ [.node (.multiOr h.length (h.length + 1))], ?_, ?_, ?_, by simp [hy]⟩
    · simp only [List.length_nil] at e1
      simp [hy, e1]
    · refine Extends.trans (extends_of_frame ?_) (.app h' _)
      intro a ha
      rw [e4 a (by simp; omega) (by omega), List.getElem?_append_left ha]
    · have hx := Extends.app h' [.node (.multiOr h.length (h.length + 1))]
      refine .multiOr _ h.length (h.length + 1) _ done' _ (by simp) (hx.get ?_)
        (allPtr_rewrite hk h1) (hx.get e2) (e3.extend hx) (rewriteRows_allPtr hkr h2)
      rw [e4 h.length (by simp) (by omega)]
      simp

theorem visited_window {isLit : Ptr → Bool} {f : Visitor σ} {e aa sa pa : Addr} {at_ : FnAttrs}
    {w : WinAttrs} {h : Heap} {s s' : σ} {l ls lp y : List Slot}
    (hn : h[e]? = some (.node (.window at_ w aa sa pa))) (hl : Holds h aa l) (hk : AllArg l)
    (hsl : Holds h sa ls) (hks : AllSort ls) (hpl : Holds h pa lp) (hkp : AllPtr lp)
    (h1 : rewriteRow f l s = .ok (y, s')) :
    VisitedAs isLit f e h s ⟨.window at_ w, [l, ls, lp]⟩ ⟨.window at_ w, [y, ls, lp]⟩ s' := by
  have hc := cow_full (ok := fun _ => true) (alloc := makeCopy (.arg (.other "nil")) l) h l y s s'
    (fun i s hi => makeCopy_spec _ l h i s hi) (argElem_ok f l hk) (by simp) h1
  unfold VisitedAs
  simp only [visit, vm_bind, readNode_ok hn, Res.ok_bind, visitWindow, readArr_ok hl, hc]
  by_cases hy : y = l
  · subst hy
    exact ⟨e, h, by simp, .refl h, .window _ _ _ aa sa pa _ _ _ hn hl hk hsl hks hpl hkp, by simp⟩
  · have hx := Extends.app h [.arr y, .node (.window at_ w h.length sa pa)]
    refine ⟨h.length + 1, _, by simp [hy], hx, ?_, by simp [hy]⟩
    exact .window _ _ _ h.length _ _ _ _ _ (by simp) (by simp [Holds]) (allArg_rewrite hk h1)
      (hx.get hsl) hks (hx.get hpl) hkp

theorem multiInner_panics {f : Visitor σ} {value : List Slot} {rows : List (List Slot)} {i : Nat}
    (hi : i < rows.length) (row : List Slot) (h : Heap) :
    ∀ (xs ys pre : List Slot) (s s' : σ), row = pre ++ xs → AllPtr xs → ys ≠ xs →
      rewriteRow f xs s = .ok (ys, s') →
      multiInner f.run value rows i xs pre.length none h s = .panic := by
  intro xs
  induction xs with
  | nil =>
    intro ys pre s s' _ _ hne hr
    simp [rewriteRow] at hr
    exact absurd hr.1 hne
  | cons x xs ih =>
    intro ys pre s s' hp hk hne hr
    obtain ⟨y, s1, ys', h1, h2, rfl⟩ := rewriteRow_cons hr
    by_cases hxy : y = x
    · subst hxy
      have := ih ys' (pre ++ [y]) s1 s' (by simp [hp]) (fun x hx => hk x (by simp [hx]))
        (by simpa using hne) h2
      simp only [List.length_append, List.length_singleton] at this
      simp only [multiInner, vm_bind, ptrElem_ok f _ hk y (by simp) _ s, h1, Res.ok_bind, vm_pure,
        ne_eq, not_true, if_false, this]
    · -- after the output is made, row `i` of its options is nil
      have hcl : ∀ (rs : List (List Slot)) (k : Nat) (hh : Heap) (opts : Addr) (slots : List Slot),
          k + rs.length ≤ i → Holds hh opts slots → slots.length = rows.length →
          slots[i]? = some (.row none) →
          ∃ hh' slots', cloneRows opts rs k hh s1 = .ok ((), hh', s1) ∧ Holds hh' opts slots' ∧
            slots'[i]? = some (.row none) := by
        intro rs
        induction rs with
        | nil => intro k hh opts slots _ ho _ hs; exact ⟨hh, slots, rfl, ho, hs⟩
        | cons r rs ihr =>
          intro k hh opts slots hki ho hlen hs
          simp only [List.length_cons] at hki
          have ho2 := (Extends.app hh [Cell.arr r]).get ho
          have hlt : opts < (hh ++ [Cell.arr r]).length := by
            rcases Nat.lt_or_ge opts (hh ++ [Cell.arr r]).length with h1 | h1
            · exact h1
            · simp [List.getElem?_eq_none h1] at ho2
          have hw : writeSlot opts k (.row (some hh.length)) (hh ++ [.arr r]) s1
              = .ok ((), (hh ++ [Cell.arr r]).set opts (Cell.arr (slots.set k (.row (some hh.length)))),
                  s1) := by
            unfold writeSlot
            rw [ho2]
            simp only
            rw [if_pos (by omega)]
          obtain ⟨hh', slots', e1, e2, e3⟩ := ihr (k + 1)
            ((hh ++ [Cell.arr r]).set opts (Cell.arr (slots.set k (.row (some hh.length))))) opts
            (slots.set k (.row (some hh.length))) (by omega)
            (by simp only [Holds, List.getElem?_set_self hlt]) (by simpa using hlen)
            (by rw [List.getElem?_set_ne (by omega)]; exact hs)
          exact ⟨hh', slots', by simp only [cloneRows, vm_bind, allocArr_app, Res.ok_bind, hw, e1],
            e2, e3⟩
      have hwp : ∀ (hh : Heap) (opts : Addr) (slots : List Slot) (j : Nat) (z : Slot),
          Holds hh opts slots → slots[i]? = some (.row none) →
          writeRow opts i j z hh s1 = .panic := by
        intro hh opts slots j z ho hs
        simp [writeRow, readRow, readArr_ok ho, hs]
      obtain ⟨hh', slots', e1, e2, e3⟩ := hcl (rows.take i) 0
        (h ++ [.arr value] ++ [.arr (List.replicate rows.length (.row none))]) (h.length + 1)
        (List.replicate rows.length (.row none)) (by simp; omega)
        (by simp [Holds, List.getElem?_append_right]) (by simp) (by simp [hi])
      have hcc : ∀ (zs : List Slot), (copyCells (h.length + 1) i zs 0 hh' s1 >>= fun r =>
          writeRow (h.length + 1) i pre.length y r.2.1 r.2.2) = .panic := by
        intro zs
        cases zs with
        | nil => simp [copyCells, hwp hh' _ slots' _ _ e2 e3]
        | cons z zs => simp [copyCells, hwp hh' _ slots' _ _ e2 e3]
      have hcc' := hcc ((rows[i]?.getD []).take pre.length)
      simp only [multiInner, vm_bind, ptrElem_ok f _ hk x (by simp) _ s, h1, Res.ok_bind, ne_eq, hxy,
        not_false_iff, if_true, allocArr_app, List.length_append, List.length_singleton, e1, vm_pure]
      cases hcp : copyCells (h.length + 1) i ((rows[i]?.getD []).take pre.length) 0 hh' s1 with
      | ok r =>
        rw [hcp] at hcc'
        simp only [Res.ok_bind] at hcc'
        simp [hcc']
      | err => simp [hcp] at hcc'
      | panic => simp

theorem unchanged_row (g : Ptr → σ → σ) (l : List Slot) (s : σ) :
    rewriteRow (Unchanged g) l s
      = .ok (l, (l.flatMap Slot.children).foldl (fun s p => g p s) s) := by
  induction l generalizing s with
  | nil => rfl
  | cons x xs ih =>
    simp only [rewriteRow, List.flatMap_cons, List.foldl_append]
    cases x with
    | arg a => cases a <;> simp [Slot.rewrite, Unchanged, Slot.children, ih]
    | _ => simp [Slot.rewrite, Unchanged, Slot.children, ih]

theorem unchanged_rows (g : Ptr → σ → σ) (l : List (List Slot)) (s : σ) :
    rewriteRows (Unchanged g) l s
      = .ok (l, (l.flatMap (fun r => r.flatMap Slot.children)).foldl (fun s p => g p s) s) := by
  induction l generalizing s with
  | nil => rfl
  | cons x xs ih =>
    simp [rewriteRows, List.flatMap_cons, List.foldl_append, unchanged_row, ih]

end Verif
