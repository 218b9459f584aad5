import Verif.Spec.AggMem
/-!
# Lemmas about aggregates and builders in memory
-/

namespace Verif

namespace GoHeap
variable {α : Type}

/-- every value in some slot satisfies `P` -/
def All (h : GoHeap α) (P : α → Prop) : Prop := ∀ a ∈ h, ∀ x ∈ a.elems, P x

theorem All.mono {h : GoHeap α} {P Q : α → Prop} (hP : h.All P) (hPQ : ∀ x, P x → Q x) : h.All Q :=
  fun a ha x hx => hPQ x (hP a ha x hx)

theorem read_some {h : GoHeap α} {s : RSlice} {xs : List α} (e : h.read s = some xs) :
    ∃ a, h[s.arr]? = some a ∧ s.len ≤ a.elems.length ∧ a.elems.take s.len = xs := by
  unfold read at e
  split at e
  · next a ha =>
    split at e
    · next hl => exact ⟨a, ha, hl, by simpa using e⟩
    · cases e
  · cases e

theorem read_of {h : GoHeap α} {s : RSlice} {a : GoArr α} (ha : h[s.arr]? = some a)
    (hl : s.len ≤ a.elems.length) : h.read s = some (a.elems.take s.len) := by
  unfold read; simp [ha, hl]

theorem read_lt {h : GoHeap α} {s : RSlice} {xs : List α} (e : h.read s = some xs) :
    s.arr < h.length := by
  obtain ⟨a, ha, -⟩ := read_some e
  exact (List.getElem?_eq_some_iff.1 ha).1

theorem read_len {h : GoHeap α} {s : RSlice} {xs : List α} (e : h.read s = some xs) :
    xs.length = s.len := by
  obtain ⟨a, ha, hl, rfl⟩ := read_some e
  simp [hl]

theorem read_mem {h : GoHeap α} {s : RSlice} {xs : List α} {P : α → Prop} (e : h.read s = some xs)
    (hP : h.All P) : ∀ x ∈ xs, P x := by
  obtain ⟨a, ha, hl, rfl⟩ := read_some e
  intro x hx
  exact hP a (List.mem_of_getElem? ha) x (List.mem_of_mem_take hx)

theorem read_prefix {h : GoHeap α} {s : RSlice} {xs : List α} (e : h.read s = some xs) {n : Nat}
    (hn : n ≤ s.len) : h.read ⟨s.arr, n⟩ = some (xs.take n) := by
  obtain ⟨a, ha, hl, rfl⟩ := read_some e
  rw [read_of (s := ⟨s.arr, n⟩) ha (by simp; omega)]
  simp [List.take_take, hn]

theorem alloc_old {h : GoHeap α} {ys : List α} {n : Nat} {s : RSlice} {xs : List α}
    (e : h.read s = some xs) : (h.alloc ys n).2.read s = some xs := by
  have hlt := read_lt e
  obtain ⟨a, ha, hl, rfl⟩ := read_some e
  exact read_of (by simp only [alloc]; rw [List.getElem?_append_left hlt]; exact ha) hl

theorem alloc_new (h : GoHeap α) (ys : List α) (n : Nat) :
    (h.alloc ys n).2.read (h.alloc ys n).1 = some ys := by
  rw [read_of (a := ⟨ys, ys.length + n⟩) (by simp [alloc]) (by simp [alloc])]
  simp [alloc]

theorem alloc_all {h : GoHeap α} {ys : List α} {n : Nat} {P : α → Prop} (hP : h.All P)
    (hy : ∀ y ∈ ys, P y) : (h.alloc ys n).2.All P := by
  intro a ha x hx
  simp only [alloc, List.mem_append, List.mem_singleton] at ha
  rcases ha with ha | rfl
  · exact hP a ha x hx
  · exact hy x hx

theorem alloc_arr (h : GoHeap α) (ys : List α) (n : Nat) : (h.alloc ys n).1.arr = h.length := rfl

theorem alloc_length (h : GoHeap α) (ys : List α) (n : Nat) :
    (h.alloc ys n).2.length = h.length + 1 := by simp [alloc]

/-- what `append` does: the new slice has one element more, slices that do not reach beyond the old
one keep their elements -/
theorem push_spec (g : Growth) {h : GoHeap α} {s : RSlice} {xs : List α} (x : α)
    (e : h.read s = some xs) :
    ∃ s' h', h.push g s x = some (s', h') ∧ h'.read s' = some (xs ++ [x]) ∧
      (∀ t ys, (t.arr = s.arr → t.len ≤ s.len) → h.read t = some ys → h'.read t = some ys) ∧
      ((s'.arr = s.arr ∧ s.len ≤ s'.len) ∨ s'.arr = h.length) ∧ h.length ≤ h'.length ∧
      (∀ P : α → Prop, h.All P → P x → h'.All P) := by
  obtain ⟨a, ha, hl, rfl⟩ := read_some e
  have hlt := read_lt e
  unfold push
  simp only [ha]
  by_cases hc : s.len + 1 ≤ a.cap
  · rw [if_pos hc]
    refine ⟨_, _, rfl, ?_, ?_, Or.inl ⟨rfl, by simp⟩, by simp, ?_⟩
    · rw [read_of (s := ⟨s.arr, s.len + 1⟩) (by simp [hlt]; rfl) (by simp; omega)]
      simp only [Option.some.injEq]
      rw [List.take_append, List.take_of_length_le (by simp; omega)]
      have h1 : s.len + 1 - (List.take s.len a.elems).length = 1 := by
        simp [Nat.min_eq_left hl]
      rw [h1]; simp
    · intro t ys ht hr
      obtain ⟨b, hb, hbl, rfl⟩ := read_some hr
      by_cases hta : t.arr = s.arr
      · have htl := ht hta
        rw [hta, ha] at hb; cases hb
        rw [read_of (by rw [hta]; simp [hlt]; rfl) (by simp; omega)]
        simp only [Option.some.injEq]
        rw [List.take_append_of_le_length (by simp; omega), List.take_take, Nat.min_eq_left htl]
      · exact read_of (by rw [List.getElem?_set_ne (fun h => hta h.symm)]; exact hb) hbl
    · intro P hP hx b hb y hy
      rcases List.mem_or_eq_of_mem_set hb with hb | rfl
      · exact hP b hb y hy
      · have := hP a (List.mem_of_getElem? ha)
        simp only [List.mem_append, List.mem_cons] at hy
        rcases hy with hy | rfl | hy
        · exact this y (List.mem_of_mem_take hy)
        · exact hx
        · exact this y (List.mem_of_mem_drop hy)
  · rw [if_neg hc]
    refine ⟨_, _, rfl, alloc_new _ _ _, fun t ys _ hr => alloc_old hr, Or.inr rfl,
      by simp, ?_⟩
    intro P hP hx
    refine alloc_all hP ?_
    intro y hy
    simp only [List.mem_append, List.mem_singleton] at hy
    rcases hy with hy | rfl
    · exact hP a (List.mem_of_getElem? ha) y (List.mem_of_mem_take hy)
    · exact hx

theorem write_other {h : GoHeap α} {s t : RSlice} {i : Nat} {x : α} {ys : List α}
    (hne : t.arr ≠ s.arr) (e : h.read t = some ys) : (h.write s i x).read t = some ys := by
  obtain ⟨a, ha, hl, rfl⟩ := read_some e
  refine read_of ?_ hl
  unfold write
  rw [List.getElem?_modify]
  simp [ha, Ne.symm hne]

theorem write_self {h : GoHeap α} {s : RSlice} {i : Nat} {x : α} {ys : List α}
    (e : h.read s = some ys) : (h.write s i x).read s = some (ys.set i x) := by
  obtain ⟨a, ha, hl, rfl⟩ := read_some e
  unfold write
  rw [read_of (a := { a with elems := a.elems.set i x }) (by rw [List.getElem?_modify]; simp [ha])
    (by simpa using hl)]
  simp [List.take_set]

theorem write_length {h : GoHeap α} {s : RSlice} {i : Nat} {x : α} :
    (h.write s i x).length = h.length := by simp [write]

end GoHeap

theorem mapM_option_nil {α β : Type} (f : α → Option β) : ([] : List α).mapM f = some [] := rfl

theorem mapM_option_cons {α β : Type} (f : α → Option β) (a : α) (as : List α) :
    (a :: as).mapM f = (f a).bind fun b => (as.mapM f).bind fun bs => some (b :: bs) := by
  rw [List.mapM_cons]; rfl

theorem mapM_option_iff {α β : Type} (f : α → Option β) : ∀ (as : List α) (bs : List β),
    as.mapM f = some bs ↔ List.Forall₂ (fun a b => f a = some b) as bs
  | [], bs => by
      rw [mapM_option_nil]
      constructor
      · intro h; cases h; exact .nil
      · intro h; cases h; rfl
  | a :: as, bs => by
      rw [mapM_option_cons]
      constructor
      · intro h
        obtain ⟨b, hb, h⟩ := Option.bind_eq_some_iff.1 h
        obtain ⟨cs, hcs, h⟩ := Option.bind_eq_some_iff.1 h
        cases h
        exact .cons hb ((mapM_option_iff f as cs).1 hcs)
      · intro h
        cases h with
        | cons h1 h2 => rw [h1, (mapM_option_iff f as _).2 h2]; rfl

theorem readSets_iff {m : AggMem} {s : RSlice} {v : List (List UInt32)} :
    m.readSets s = some v ↔ ∃ ts, m.sets.read s = some ts ∧
      List.Forall₂ (fun t xs => m.nums.read t = some xs) ts v := by
  unfold AggMem.readSets
  rw [Option.bind_eq_some_iff]
  simp only [mapM_option_iff]

theorem forall₂_getElem? {α β : Type} {R : α → β → Prop} {xs : List α} {ys : List β}
    (h : List.Forall₂ R xs ys) (i : Nat) :
    (xs[i]? = none ∧ ys[i]? = none) ∨ ∃ x y, xs[i]? = some x ∧ ys[i]? = some y ∧ R x y := by
  induction h generalizing i with
  | nil => left; simp
  | cons h1 h2 ih =>
    cases i with
    | zero => right; exact ⟨_, _, rfl, rfl, h1⟩
    | succ i => simpa using ih i

theorem forall₂_set {α β : Type} {R R' : α → β → Prop} {xs : List α} {ys : List β}
    (h : List.Forall₂ R xs ys) (i : Nat) {x' : α} {y' : β} (h' : R' x' y')
    (hk : ∀ j x y, j ≠ i → xs[j]? = some x → R x y → R' x y) :
    List.Forall₂ R' (xs.set i x') (ys.set i y') := by
  induction h generalizing i with
  | nil => exact .nil
  | @cons x y xs ys h1 h2 ih =>
    cases i with
    | zero =>
      refine .cons h' ?_
      clear ih
      have : ∀ j x y, xs[j]? = some x → R x y → R' x y := fun j x y hj => hk (j + 1) x y (by simp) (by simpa using hj)
      clear hk
      induction h2 with
      | nil => exact .nil
      | cons h1 h2 ih =>
        exact .cons (this 0 _ _ rfl h1) (ih (fun j x y hj => this (j + 1) x y (by simpa using hj)))
    | succ i =>
      exact .cons (hk 0 x y (by simp) rfl h1)
        (ih i (fun j x y hj hx => hk (j + 1) x y (by omega) (by simpa using hx)))

theorem forall₂_imp_mem {α β : Type} {R R' : α → β → Prop} {xs : List α} {ys : List β}
    (h : List.Forall₂ R xs ys) (hk : ∀ x y, x ∈ xs → R x y → R' x y) : List.Forall₂ R' xs ys := by
  induction h with
  | nil => exact .nil
  | cons h1 h2 ih =>
    exact .cons (hk _ _ (by simp) h1) (ih (fun x y hx => hk x y (by simp [hx])))

theorem forall₂_snoc {α β : Type} {R : α → β → Prop} {xs : List α} {ys : List β}
    (h : List.Forall₂ R xs ys) {x : α} {y : β} (h' : R x y) :
    List.Forall₂ R (xs ++ [x]) (ys ++ [y]) := by
  induction h with
  | nil => exact .cons h' .nil
  | cons h1 h2 ih => exact .cons h1 ih

/-- `m'` has what `m` has, for slices of expressions satisfying `pe` and slices of sets satisfying
`ps` -/
structure AggMem.Kept (m m' : AggMem) (pe ps : RSlice → Prop) : Prop where
  nums : ∀ t xs, m.nums.read t = some xs → m'.nums.read t = some xs
  meas : ∀ t xs, m.meas.read t = some xs → m'.meas.read t = some xs
  exprs : ∀ t xs, pe t → m.exprs.read t = some xs → m'.exprs.read t = some xs
  sets : ∀ t xs, ps t → m.sets.read t = some xs → m'.sets.read t = some xs

theorem AggMem.Kept.readSets {m m' : AggMem} {pe ps : RSlice → Prop} (k : m.Kept m' pe ps)
    {s : RSlice} (hs : ps s) {v : List (List UInt32)} (h : m.readSets s = some v) :
    m'.readSets s = some v := by
  obtain ⟨ts, h1, h2⟩ := readSets_iff.1 h
  exact readSets_iff.2 ⟨ts, k.sets _ _ hs h1, h2.imp fun t xs => k.nums t xs⟩

theorem MBuilder.Shows.keep {m m' : AggMem} {pe ps : RSlice → Prop} (k : m.Kept m' pe ps)
    {b : MBuilder} (he : pe b.exprs) (hs : ps b.refs) {v : AggBuilder} (h : b.Shows m v) :
    b.Shows m' v :=
  ⟨h.1, k.meas _ _ h.2.1, k.exprs _ _ he h.2.2.1, k.readSets hs h.2.2.2⟩

theorem MAgg.Shows.keep {m m' : AggMem} {pe ps : RSlice → Prop} (k : m.Kept m' pe ps)
    {a : MAgg} (he : pe a.exprs) (hs : ps a.refs) {v : AggVal} (h : a.Shows m v) :
    a.Shows m' v :=
  ⟨h.1, h.2.1, k.meas _ _ h.2.2.1, k.exprs _ _ he h.2.2.2.1, k.readSets hs h.2.2.2.2.1, h.2.2.2.2.2⟩

/-- a slice that does not reach beyond `s` -/
def NoFurther (s t : RSlice) : Prop := t.arr = s.arr → t.len ≤ s.len

/-- builders own their arrays, aggregates do not reach beyond them, and the numbers of the program
that are not in `kept` are apart from all grouping sets -/
structure AggWorld.Inv (w : AggWorld) (kept : List Nat) : Prop where
  own : ∀ (i j : Nat) (a b : MBuilder), i ≠ j → w.builders[i]? = some a → w.builders[j]? = some b →
    a.exprs.arr ≠ b.exprs.arr ∧ a.refs.arr ≠ b.refs.arr
  below : ∀ a ∈ w.aggs, ∀ b ∈ w.builders, NoFurther b.exprs a.exprs ∧ NoFurther b.refs a.refs
  given : ∀ (i j : Nat) (s t : RSlice), i ≠ j → w.givenRefs[i]? = some s → w.givenRefs[j]? = some t →
    s.arr ≠ t.arr
  inside : w.mem.sets.All fun t => t.arr < w.mem.nums.length
  apart : ∀ (k : Nat) (s : RSlice), w.givenRefs[k]? = some s → k ∉ kept →
    w.mem.sets.All fun t => t.arr ≠ s.arr

theorem MBuilder.Shows.arrs {m : AggMem} {b : MBuilder} {v : AggBuilder} (h : b.Shows m v) :
    b.exprs.arr < m.exprs.length ∧ b.refs.arr < m.sets.length := by
  obtain ⟨ts, h1, -⟩ := readSets_iff.1 h.2.2.2
  exact ⟨GoHeap.read_lt h.2.2.1, GoHeap.read_lt h1⟩

theorem MAgg.Shows.arrs {m : AggMem} {a : MAgg} {v : AggVal} (h : a.Shows m v) :
    a.exprs.arr < m.exprs.length ∧ a.refs.arr < m.sets.length := by
  obtain ⟨ts, h1, -⟩ := readSets_iff.1 h.2.2.2.2.1
  exact ⟨GoHeap.read_lt h.2.2.2.1, GoHeap.read_lt h1⟩

theorem forall₂_left {α β : Type} {R : α → β → Prop} {xs : List α} {ys : List β}
    (h : List.Forall₂ R xs ys) : ∀ x ∈ xs, ∃ y, R x y := by
  induction h with
  | nil => simp
  | cons h1 h2 ih =>
    intro x hx
    rcases List.mem_cons.1 hx with rfl | hx
    · exact ⟨_, h1⟩
    · exact ih x hx

/-- `s'` is the array of `s`, no shorter, or an array that did not exist -/
def Grown (n : Nat) (s s' : RSlice) : Prop := (s'.arr = s.arr ∧ s.len ≤ s'.len) ∨ n ≤ s'.arr

theorem NoFurther.grown {n : Nat} {s s' t : RSlice} (h : NoFurther s t) (hg : Grown n s s') (ht : t.arr < n) :
    NoFurther s' t := by
  intro e
  rcases hg with ⟨h1, h2⟩ | h1
  · have := h (e.trans h1); omega
  · omega

/-- the builder `i` changed, in memory as in value -/
theorem step_builder {w : AggWorld} {v : AggValues} {kept kept' : List Nat} (hw : w.Shows v)
    (inv : w.Inv kept) {i : Nat} {b b' : MBuilder} {vb' : AggBuilder} {m' : AggMem}
    (hb : w.builders[i]? = some b)
    (hk : w.mem.Kept m' (NoFurther b.exprs) (NoFurther b.refs))
    (hn : w.mem.nums.length ≤ m'.nums.length)
    (hs : b'.Shows m' vb') (he : Grown w.mem.exprs.length b.exprs b'.exprs)
    (hr : Grown w.mem.sets.length b.refs b'.refs)
    (hsub : ∀ k ∈ kept, k ∈ kept')
    (hin : m'.sets.All fun t => t.arr < m'.nums.length)
    (hap : ∀ (k : Nat) (s : RSlice), w.givenRefs[k]? = some s → k ∉ kept' →
      m'.sets.All fun t => t.arr ≠ s.arr) :
    AggWorld.Shows { w with mem := m', builders := w.builders.set i b' }
      { v with builders := v.builders.set i vb' } ∧
    AggWorld.Inv { w with mem := m', builders := w.builders.set i b' } kept' := by
  have hlt : i < w.builders.length := (List.getElem?_eq_some_iff.1 hb).1
  have hbm : b ∈ w.builders := List.mem_of_getElem? hb
  have harr : ∀ (j : Nat) (a : MBuilder), j ≠ i → w.builders[j]? = some a →
      a.exprs.arr ≠ b'.exprs.arr ∧ a.refs.arr ≠ b'.refs.arr := by
    intro j a hj ha
    obtain ⟨va, hva⟩ := forall₂_left hw.builders a (List.mem_of_getElem? ha)
    obtain ⟨h1, h2⟩ := hva.arrs
    obtain ⟨h3, h4⟩ := inv.own j i a b hj ha hb
    constructor
    · rcases he with ⟨h, -⟩ | h
      · rw [h]; exact h3
      · omega
    · rcases hr with ⟨h, -⟩ | h
      · rw [h]; exact h4
      · omega
  refine ⟨⟨hw.refs.imp (fun t xs => hk.nums t xs), hw.meas.imp (fun t xs => hk.meas t xs), ?_, ?_⟩,
    ⟨?_, ?_, inv.given, hin, hap⟩⟩
  · refine forall₂_set hw.builders i hs ?_
    intro j a va hj ha h
    obtain ⟨h3, h4⟩ := inv.own j i a b hj ha hb
    exact h.keep hk (fun e => absurd e h3) (fun e => absurd e h4)
  · refine forall₂_imp_mem hw.aggs ?_
    intro a va ha h
    obtain ⟨h1, h2⟩ := inv.below a ha b hbm
    exact h.keep hk h1 h2
  · intro j k a c hjk ha hc
    simp only [List.getElem?_set, hlt] at ha hc
    by_cases h1 : i = j
    · subst h1
      have h2 : ¬ i = k := hjk
      simp [h2] at ha hc
      subst ha
      obtain ⟨h3, h4⟩ := harr k c (fun h => h2 h.symm) hc
      exact ⟨h3.symm, h4.symm⟩
    · by_cases h2 : i = k
      · subst h2
        simp [h1] at ha hc
        subst hc
        exact harr j a (fun h => h1 h.symm) ha
      · simp [h1, h2] at ha hc
        exact inv.own j k a c hjk ha hc
  · intro a ha c hc
    obtain ⟨va, hva⟩ := forall₂_left hw.aggs a ha
    obtain ⟨h1, h2⟩ := hva.arrs
    rcases List.mem_or_eq_of_mem_set hc with hc | rfl
    · exact inv.below a ha c hc
    · obtain ⟨h3, h4⟩ := inv.below a ha b hbm
      exact ⟨h3.grown he h1, h4.grown hr h2⟩

/-- an aggregate was added or replaced, and memory only grew -/
theorem step_agg {w : AggWorld} {v : AggValues} {kept kept' : List Nat} (hw : w.Shows v)
    (inv : w.Inv kept) {m' : AggMem} {as : List MAgg} {vs : List AggVal}
    (hk : w.mem.Kept m' (fun _ => True) (fun _ => True))
    (hs : List.Forall₂ (MAgg.Shows m') as vs)
    (hbelow : ∀ a ∈ as, ∀ b ∈ w.builders, NoFurther b.exprs a.exprs ∧ NoFurther b.refs a.refs)
    (hin : m'.sets.All fun t => t.arr < m'.nums.length)
    (hap : ∀ (k : Nat) (s : RSlice), w.givenRefs[k]? = some s → k ∉ kept' →
      m'.sets.All fun t => t.arr ≠ s.arr) :
    AggWorld.Shows { w with mem := m', aggs := as } { v with aggs := vs } ∧
    AggWorld.Inv { w with mem := m', aggs := as } kept' := by
  refine ⟨⟨hw.refs.imp (fun t xs => hk.nums t xs), hw.meas.imp (fun t xs => hk.meas t xs),
    hw.builders.imp (fun b vb h => h.keep hk trivial trivial), hs⟩,
    ⟨inv.own, hbelow, inv.given, hin, hap⟩⟩

/-- a builder was added, with arrays of its own -/
theorem step_new {w : AggWorld} {v : AggValues} {kept : List Nat} (hw : w.Shows v)
    (inv : w.Inv kept) {m' : AggMem} {b : MBuilder} {vb : AggBuilder}
    (hk : w.mem.Kept m' (fun _ => True) (fun _ => True)) (hs : b.Shows m' vb)
    (he : b.exprs.arr = w.mem.exprs.length) (hr : b.refs.arr = w.mem.sets.length)
    (hin : m'.sets.All fun t => t.arr < m'.nums.length)
    (hap : ∀ (k : Nat) (s : RSlice), w.givenRefs[k]? = some s → k ∉ kept →
      m'.sets.All fun t => t.arr ≠ s.arr) :
    AggWorld.Shows { w with mem := m', builders := w.builders ++ [b] }
      { v with builders := v.builders ++ [vb] } ∧
    AggWorld.Inv { w with mem := m', builders := w.builders ++ [b] } kept := by
  refine ⟨⟨hw.refs.imp (fun t xs => hk.nums t xs), hw.meas.imp (fun t xs => hk.meas t xs),
    forall₂_snoc (hw.builders.imp (fun b vb h => h.keep hk trivial trivial)) hs,
    hw.aggs.imp (fun a va h => h.keep hk trivial trivial)⟩,
    ⟨?_, ?_, inv.given, hin, hap⟩⟩
  · have hold : ∀ (j : Nat) (a : MBuilder), w.builders[j]? = some a →
        a.exprs.arr ≠ b.exprs.arr ∧ a.refs.arr ≠ b.refs.arr := by
      intro j a ha
      obtain ⟨va, hva⟩ := forall₂_left hw.builders a (List.mem_of_getElem? ha)
      obtain ⟨h1, h2⟩ := hva.arrs
      omega
    have hcase : ∀ (j : Nat) (a : MBuilder), (w.builders ++ [b])[j]? = some a →
        w.builders[j]? = some a ∨ (j = w.builders.length ∧ a = b) := by
      intro j a ha
      rw [List.getElem?_append] at ha
      split at ha
      · exact Or.inl ha
      · right
        have h0 : j - w.builders.length = 0 := by
          by_contra hne
          rw [List.getElem?_eq_none (by simp; omega)] at ha
          cases ha
        rw [h0] at ha
        simp at ha
        exact ⟨by omega, ha.symm⟩
    intro i j a c hij ha hc
    rcases hcase i a ha with ha' | ⟨hi, ea⟩ <;> rcases hcase j c hc with hc' | ⟨hj, ec⟩
    · exact inv.own i j a c hij ha' hc'
    · rw [ec]; exact hold i a ha'
    · rw [ea]; obtain ⟨h1, h2⟩ := hold j c hc'; exact ⟨h1.symm, h2.symm⟩
    · omega
  · intro a ha c hc
    rcases List.mem_append.1 hc with hc | hc
    · exact inv.below a ha c hc
    · obtain rfl := List.mem_singleton.1 hc
      obtain ⟨va, hva⟩ := forall₂_left hw.aggs a ha
      obtain ⟨h1, h2⟩ := hva.arrs
      exact ⟨fun e => by omega, fun e => by omega⟩


theorem AggMem.Kept.refl (m : AggMem) (pe ps : RSlice → Prop) : m.Kept m pe ps :=
  ⟨fun _ _ h => h, fun _ _ h => h, fun _ _ _ h => h, fun _ _ _ h => h⟩

theorem AggMem.Kept.trans {m m' m'' : AggMem} {pe ps qe qs : RSlice → Prop} (k : m.Kept m' pe ps)
    (k' : m'.Kept m'' qe qs) : m.Kept m'' (fun t => pe t ∧ qe t) (fun t => ps t ∧ qs t) :=
  ⟨fun t xs h => k'.nums t xs (k.nums t xs h), fun t xs h => k'.meas t xs (k.meas t xs h),
    fun t xs hp h => k'.exprs t xs hp.2 (k.exprs t xs hp.1 h),
    fun t xs hp h => k'.sets t xs hp.2 (k.sets t xs hp.1 h)⟩

/-- what adding grouping sets to a slice of sets does -/
structure SetsAdded (m : AggMem) (s : RSlice) (v : List (List UInt32)) (m' : AggMem) (s' : RSlice)
    (safe : Nat → Prop) : Prop where
  reads : m'.readSets s' = some v
  nums : ∀ t xs, m.nums.read t = some xs → m'.nums.read t = some xs
  exprs : m'.exprs = m.exprs
  meas : m'.meas = m.meas
  sets : ∀ t xs, NoFurther s t → m.sets.read t = some xs → m'.sets.read t = some xs
  grown : Grown m.sets.length s s'
  more : m.sets.length ≤ m'.sets.length ∧ m.nums.length ≤ m'.nums.length
  inside : (m.sets.All fun t => t.arr < m.nums.length) → m'.sets.All fun t => t.arr < m'.nums.length
  apart : ∀ A, safe A → A < m.nums.length → (m.sets.All fun t => t.arr ≠ A) →
    m'.sets.All fun t => t.arr ≠ A

theorem SetsAdded.trans {m m' m'' : AggMem} {s s' s'' : RSlice} {v v' : List (List UInt32)}
    {safe : Nat → Prop} (h : SetsAdded m s v m' s' safe) (h' : SetsAdded m' s' v' m'' s'' safe) :
    SetsAdded m s v' m'' s'' safe := by
  refine ⟨h'.reads, fun t xs e => h'.nums t xs (h.nums t xs e), h'.exprs.trans h.exprs,
    h'.meas.trans h.meas, ?_, ?_, ⟨Nat.le_trans h.more.1 h'.more.1, Nat.le_trans h.more.2 h'.more.2⟩,
    fun e => h'.inside (h.inside e),
    fun A hs hA e => h'.apart A hs (Nat.lt_of_lt_of_le hA h.more.2) (h.apart A hs hA e)⟩
  · intro t xs ht e
    refine h'.sets t xs ?_ (h.sets t xs ht e)
    exact NoFurther.grown ht h.grown (GoHeap.read_lt e)
  · rcases h'.grown with ⟨h1, h2⟩ | h1
    · rcases h.grown with ⟨h3, h4⟩ | h3
      · exact Or.inl ⟨h1.trans h3, Nat.le_trans h4 h2⟩
      · exact Or.inr (by omega)
    · exact Or.inr (Nat.le_trans h.more.1 h1)

theorem pushSet_spec (g : Growth) {m : AggMem} {s t : RSlice} {v : List (List UInt32)}
    {xs : List UInt32} (hv : m.readSets s = some v) (ht : m.nums.read t = some xs) :
    ∃ s' sets, m.sets.push g s t = some (s', sets) ∧
      SetsAdded m s (v ++ [xs]) { m with sets := sets } s' (fun A => t.arr ≠ A) := by
  obtain ⟨ts, h1, h2⟩ := readSets_iff.1 hv
  obtain ⟨s', sets, e, r1, r2, r3, r4, r5⟩ := GoHeap.push_spec g t h1
  refine ⟨s', sets, e, ⟨?_, fun _ _ h => h, rfl, rfl, fun t xs ht h => r2 t xs ht h, ?_, ⟨r4, Nat.le_refl _⟩,
    fun h => r5 _ h (GoHeap.read_lt ht), fun A hA _ h => r5 _ h hA⟩⟩
  · exact readSets_iff.2 ⟨_, r1, forall₂_snoc h2 ht⟩
  · rcases r3 with h | h
    · exact Or.inl h
    · exact Or.inr (Nat.le_of_eq h.symm)

theorem SetsAdded.refl {m : AggMem} {s : RSlice} {v : List (List UInt32)} (hv : m.readSets s = some v)
    (safe : Nat → Prop) : SetsAdded m s v m s safe :=
  ⟨hv, fun _ _ h => h, rfl, rfl, fun _ _ _ h => h, Or.inl ⟨rfl, Nat.le_refl _⟩, ⟨Nat.le_refl _, Nat.le_refl _⟩,
    fun h => h, fun _ _ _ h => h⟩

theorem rollupLoop_spec (g : Growth) (r : RSlice) (xs : List UInt32) : ∀ (n : Nat) (m : AggMem)
    (s : RSlice) (v : List (List UInt32)), n ≤ r.len → m.nums.read r = some xs →
    m.readSets s = some v →
    ∃ s' m', rollupLoop g r n m s = some (s', m') ∧
      SetsAdded m s (v ++ rollupSets xs n) m' s' (fun A => r.arr ≠ A)
  | 0, m, s, v, _, _, hv => ⟨s, m, rfl, by simpa [rollupSets] using SetsAdded.refl hv _⟩
  | n + 1, m, s, v, hn, hr, hv => by
      obtain ⟨s1, sets, e1, a1⟩ := pushSet_spec g hv (GoHeap.read_prefix hr hn)
      obtain ⟨s2, m2, e2, a2⟩ := rollupLoop_spec g r xs n { m with sets := sets } s1 _ (by omega) hr a1.reads
      refine ⟨s2, m2, ?_, ?_⟩
      · simp only [rollupLoop, e1, Option.bind_some]; exact e2
      · have := a1.trans a2
        simpa [rollupSets, List.append_assoc] using this

theorem cubeLoop_spec (g : Growth) (xs : List UInt32) : ∀ (ks : List Nat) (m : AggMem)
    (s : RSlice) (v : List (List UInt32)), m.readSets s = some v →
    ∃ s' m', cubeLoop g xs ks m s = some (s', m') ∧
      SetsAdded m s (v ++ ks.map fun k => extractGroup k 0 xs) m' s' (fun _ => True)
  | [], m, s, v, hv => ⟨s, m, rfl, by simpa using SetsAdded.refl hv _⟩
  | k :: ks, m, s, v, hv => by
      let al := m.nums.alloc (extractGroup k 0 xs) (g 0 (extractGroup k 0 xs).length)
      let m1 : AggMem := { m with nums := al.2 }
      have hv1 : m1.readSets s = some v := by
        obtain ⟨ts, h1, h2⟩ := readSets_iff.1 hv
        exact readSets_iff.2 ⟨ts, h1, h2.imp fun t ys => GoHeap.alloc_old⟩
      obtain ⟨s1, sets, e1, a1⟩ := pushSet_spec g (m := m1) (t := al.1) hv1 (GoHeap.alloc_new _ _ _)
      have a0 : SetsAdded m s (v ++ [extractGroup k 0 xs]) { m1 with sets := sets } s1 (fun _ => True) :=
        ⟨a1.reads, fun t ys h => a1.nums t ys (GoHeap.alloc_old h), rfl, rfl, a1.sets, a1.grown,
          ⟨a1.more.1, by simp [m1, al, GoHeap.alloc]⟩,
          fun h => a1.inside (h.mono fun t ht => by
            show t.arr < (GoHeap.alloc _ _ _).2.length
            rw [GoHeap.alloc_length]; omega),
          fun A _ hA h => a1.apart A (by show m.nums.length ≠ A; omega) (by
            show A < (GoHeap.alloc _ _ _).2.length
            rw [GoHeap.alloc_length]; omega) h⟩
      obtain ⟨s2, m2, e2, a2⟩ := cubeLoop_spec g xs ks _ s1 _ a0.reads
      refine ⟨s2, m2, ?_, ?_⟩
      · show (m.sets.push g s al.1).bind _ = _
        rw [show m.sets.push g s al.1 = some (s1, sets) from e1]
        exact e2
      · have := a0.trans a2
        simpa [List.append_assoc] using this

theorem allocSets_spec : ∀ (rs : List (List UInt32)) (m : AggMem) (ts : List RSlice) (m' : AggMem),
    allocSets rs m = (ts, m') →
    List.Forall₂ (fun t xs => m'.nums.read t = some xs) ts rs ∧
    (∀ t xs, m.nums.read t = some xs → m'.nums.read t = some xs) ∧
    m'.sets = m.sets ∧ m'.exprs = m.exprs ∧ m'.meas = m.meas ∧ m.nums.length ≤ m'.nums.length ∧
    ∀ t ∈ ts, m.nums.length ≤ t.arr ∧ t.arr < m'.nums.length
  | [], m, ts, m', h => by
      simp only [allocSets, Prod.mk.injEq] at h
      obtain ⟨rfl, rfl⟩ := h
      exact ⟨.nil, fun _ _ h => h, rfl, rfl, rfl, Nat.le_refl _, by simp⟩
  | r :: rs, m, ts, m', h => by
      simp only [allocSets] at h
      generalize hal : allocSets rs { m with nums := (m.nums.alloc r 0).2 } = q at h
      obtain ⟨ts1, m1⟩ := q
      simp only [Prod.mk.injEq] at h
      obtain ⟨rfl, rfl⟩ := h
      obtain ⟨h1, h2, h3, h4, h5, h6, h7⟩ := allocSets_spec rs _ _ _ hal
      have hl := GoHeap.alloc_length m.nums r 0
      simp only [hl] at h6 h7
      refine ⟨.cons (h2 _ _ (GoHeap.alloc_new _ _ _)) h1, fun t xs h => h2 t xs (GoHeap.alloc_old h),
        h3, h4, h5, by omega, ?_⟩
      intro t ht
      rcases List.mem_cons.1 ht with rfl | ht
      · exact ⟨Nat.le_refl _, by show m.nums.length < _; omega⟩
      · have := h7 t ht; omega


section
variable {w : AggWorld} {v : AggValues} {kept : List Nat}

/-- memory only grew by arrays of expressions, measures or slices of sets -/
theorem kept_alloc (m : AggMem) (es : List PExpr) (ms : List Measure) (ts : List RSlice) (a b c : Nat) :
    m.Kept { m with exprs := (m.exprs.alloc es a).2, meas := (m.meas.alloc ms b).2,
                    sets := (m.sets.alloc ts c).2 } (fun _ => True) (fun _ => True) :=
  ⟨fun _ _ h => h, fun _ _ h => GoHeap.alloc_old h, fun _ _ _ h => GoHeap.alloc_old h,
    fun _ _ _ h => GoHeap.alloc_old h⟩

theorem AggMem.Kept.weaken {m m' : AggMem} {pe ps qe qs : RSlice → Prop} (k : m.Kept m' pe ps)
    (he : ∀ t, qe t → pe t) (hs : ∀ t, qs t → ps t) : m.Kept m' qe qs :=
  ⟨k.nums, k.meas, fun t xs h => k.exprs t xs (he t h), fun t xs h => k.sets t xs (hs t h)⟩

theorem setsAdded_kept {m m' : AggMem} {s s' : RSlice} {v : List (List UInt32)} {safe : Nat → Prop}
    (h : SetsAdded m s v m' s' safe) (pe : RSlice → Prop) : m.Kept m' pe (NoFurther s) :=
  ⟨h.nums, by rw [h.meas]; exact fun _ _ h => h, by rw [h.exprs]; exact fun _ _ _ h => h, h.sets⟩

theorem grown_refl (n : Nat) (s : RSlice) : Grown n s s := Or.inl ⟨rfl, Nat.le_refl _⟩

/-- grouping sets were added to the builder `i` -/
theorem step_sets (hw : w.Shows v) (inv : w.Inv kept) {kept' : List Nat} {i : Nat} {b : MBuilder}
    {vb : AggBuilder} (hb : w.builders[i]? = some b) (hs : b.Shows w.mem vb) {m' : AggMem} {s' : RSlice}
    {rs : List (List UInt32)} {safe : Nat → Prop}
    (h : SetsAdded w.mem b.refs rs m' s' safe) (hsub : ∀ k ∈ kept, k ∈ kept')
    (hsafe : ∀ (k : Nat) (s : RSlice), w.givenRefs[k]? = some s → k ∉ kept' → safe s.arr) :
    AggWorld.Shows { w with mem := m', builders := w.builders.set i { b with refs := s' } }
      { v with builders := v.builders.set i { vb with refs := rs } } ∧
    AggWorld.Inv { w with mem := m', builders := w.builders.set i { b with refs := s' } } kept' := by
  refine step_builder hw inv hb (setsAdded_kept h _) h.more.2 ?_ (grown_refl _ _) h.grown hsub
    (h.inside inv.inside) ?_
  · exact ⟨hs.1, by rw [h.meas]; exact hs.2.1, by rw [h.exprs]; exact hs.2.2.1, h.reads⟩
  · intro k s hk hn
    have hlt : s.arr < w.mem.nums.length := by
      obtain ⟨xs, hx⟩ := forall₂_left hw.refs s (List.mem_of_getElem? hk)
      exact GoHeap.read_lt hx
    exact h.apart s.arr (hsafe k s hk hn) hlt (inv.apart k s hk (fun h => hn (hsub k h)))

theorem readSets_mono {m m' : AggMem} (hs : m'.sets = m.sets) (hn : m'.nums = m.nums) (s : RSlice) :
    m'.readSets s = m.readSets s := by
  unfold AggMem.readSets; rw [hs, hn]

theorem givenRefs_mapM (hw : w.Shows v) : ∀ (ks : List Nat),
    ((ks.mapM fun k => w.givenRefs[k]?) = none ∧ (ks.mapM fun k => v.givenRefs[k]?) = none) ∨
    ∃ ts rs, (ks.mapM fun k => w.givenRefs[k]?) = some ts ∧ (ks.mapM fun k => v.givenRefs[k]?) = some rs ∧
      List.Forall₂ (fun t xs => w.mem.nums.read t = some xs) ts rs ∧
      ∀ t ∈ ts, ∃ k ∈ ks, w.givenRefs[k]? = some t
  | [] => Or.inr ⟨[], [], rfl, rfl, .nil, by simp⟩
  | k :: ks => by
      rw [mapM_option_cons, mapM_option_cons]
      rcases forall₂_getElem? hw.refs k with ⟨h1, h2⟩ | ⟨t, xs, h1, h2, h3⟩
      · left; simp [h1, h2]
      · rcases givenRefs_mapM hw ks with ⟨h4, h5⟩ | ⟨ts, rs, h4, h5, h6, h7⟩
        · left; simp [h1, h2, h4, h5]
        · right
          refine ⟨t :: ts, xs :: rs, by simp [h1, h4], by simp [h2, h5], .cons h3 h6, ?_⟩
          intro t' ht
          rcases List.mem_cons.1 ht with rfl | ht
          · exact ⟨k, by simp, h1⟩
          · obtain ⟨k', hk', e⟩ := h7 t' ht
            exact ⟨k', by simp [hk'], e⟩

end


/-- one call, in memory and on values -/
theorem step_sim (g : Growth) {w : AggWorld} {v : AggValues} {kept : List Nat} (hw : w.Shows v)
    (inv : w.Inv kept) (c : AggCall) (hc : ∀ k i x, c = .writeRefs k i x → k ∉ kept) :
    (w.step g c = none ∧ v.step c = none) ∨
    ∃ w' v', w.step g c = some w' ∧ v.step c = some v' ∧ w'.Shows v' ∧ w'.Inv (c.keeps ++ kept) := by
  have hin := inv.inside
  have hap := inv.apart
  cases c with
  | makeRefs xs spare =>
    right
    have hkm : w.mem.Kept { w.mem with nums := (w.mem.nums.alloc xs spare).2 } (fun _ => True) (fun _ => True) :=
      ⟨fun _ _ h => GoHeap.alloc_old h, fun _ _ h => h, fun _ _ _ h => h, fun _ _ _ h => h⟩
    refine ⟨_, _, rfl, rfl, ⟨?_, hw.meas, ?_, ?_⟩, ⟨inv.own, inv.below, ?_, ?_, ?_⟩⟩
    · exact forall₂_snoc (hw.refs.imp fun t xs h => GoHeap.alloc_old h) (GoHeap.alloc_new _ _ _)
    · exact hw.builders.imp fun b vb h => h.keep hkm trivial trivial
    · exact hw.aggs.imp fun b vb h => h.keep hkm trivial trivial
    · have hold : ∀ (j : Nat) (s : RSlice), w.givenRefs[j]? = some s → s.arr < w.mem.nums.length := by
        intro j s hs
        obtain ⟨ys, hy⟩ := forall₂_left hw.refs s (List.mem_of_getElem? hs)
        exact GoHeap.read_lt hy
      have hcase : ∀ (j : Nat) (s : RSlice),
          (w.givenRefs ++ [(w.mem.nums.alloc xs spare).1])[j]? = some s →
          w.givenRefs[j]? = some s ∨ (j = w.givenRefs.length ∧ s.arr = w.mem.nums.length) := by
        intro j s hs
        rw [List.getElem?_append] at hs
        split at hs
        · exact Or.inl hs
        · right
          have h0 : j - w.givenRefs.length = 0 := by
            by_contra hne
            rw [List.getElem?_eq_none (by simp; omega)] at hs
            cases hs
          rw [h0] at hs
          simp at hs
          exact ⟨by omega, by rw [← hs]; rfl⟩
      intro i j s t hij hs ht
      rcases hcase i s hs with h1 | ⟨h1, h2⟩ <;> rcases hcase j t ht with h3 | ⟨h3, h4⟩
      · exact inv.given i j s t hij h1 h3
      · have := hold i s h1; omega
      · have := hold j t h3; omega
      · omega
    · refine hin.mono fun t ht => ?_
      show t.arr < (GoHeap.alloc _ _ _).2.length
      rw [GoHeap.alloc_length]; omega
    · intro k s hs hn
      rw [List.getElem?_append] at hs
      split at hs
      · exact hap k s hs hn
      · have h0 : k - w.givenRefs.length = 0 := by
          by_contra hne
          rw [List.getElem?_eq_none (by simp; omega)] at hs
          cases hs
        rw [h0] at hs
        simp at hs
        refine hin.mono fun t ht => ?_
        rw [← hs]
        show t.arr ≠ w.mem.nums.length
        omega
  | makeMeasures ms spare =>
    right
    have hk : w.mem.Kept { w.mem with meas := (w.mem.meas.alloc ms spare).2 } (fun _ => True) (fun _ => True) :=
      ⟨fun _ _ h => h, fun _ _ h => GoHeap.alloc_old h, fun _ _ _ h => h, fun _ _ _ h => h⟩
    exact ⟨_, _, rfl, rfl, ⟨hw.refs, forall₂_snoc (hw.meas.imp fun t xs h => GoHeap.alloc_old h)
      (GoHeap.alloc_new _ _ _), hw.builders.imp fun b vb h => h.keep hk trivial trivial,
      hw.aggs.imp fun b vb h => h.keep hk trivial trivial⟩,
      ⟨inv.own, inv.below, inv.given, hin, hap⟩⟩
  | writeRefs k i x =>
    have hk := hc k i x rfl
    simp only [AggWorld.step, AggValues.step]
    rcases forall₂_getElem? hw.refs k with ⟨h1, h2⟩ | ⟨s, xs, h1, h2, h3⟩
    · left; simp [h1, h2]
    · have hlen := GoHeap.read_len h3
      simp only [h1, h2, Option.bind_some, hlen]
      by_cases hi : i < s.len
      · right
        rw [if_pos hi, if_pos hi]
        have hsets : ∀ r vs, w.mem.readSets r = some vs →
            AggMem.readSets { w.mem with nums := w.mem.nums.write s i x } r = some vs := by
          intro r vs hr
          obtain ⟨ts, e1, e2⟩ := readSets_iff.1 hr
          have hne := GoHeap.read_mem e1 (hap k s h1 hk)
          exact readSets_iff.2 ⟨ts, e1, forall₂_imp_mem e2 fun t ys ht e =>
            GoHeap.write_other (hne t ht) e⟩
        refine ⟨_, _, rfl, rfl, ⟨?_, hw.meas, ?_, ?_⟩, ⟨inv.own, inv.below, inv.given, ?_, hap⟩⟩
        · have hself : w.givenRefs.set k s = w.givenRefs := by
            apply List.ext_getElem? ; intro j
            rw [List.getElem?_set]
            split
            · next e =>
              subst e
              rw [if_pos (List.getElem?_eq_some_iff.1 h1).1, h1]
            · rfl
          show List.Forall₂ _ w.givenRefs _
          rw [← hself]
          exact forall₂_set hw.refs k (GoHeap.write_self h3) fun j t ys hj ht e =>
            GoHeap.write_other (inv.given j k t s hj ht h1) e
        · exact hw.builders.imp fun b vb h => ⟨h.1, h.2.1, h.2.2.1, hsets _ _ h.2.2.2⟩
        · exact hw.aggs.imp fun b vb h => ⟨h.1, h.2.1, h.2.2.1, h.2.2.2.1, hsets _ _ h.2.2.2.2.1, h.2.2.2.2.2⟩
        · show GoHeap.All _ _
          simp only [GoHeap.write_length]
          exact hin
      · left
        rw [if_neg hi, if_neg hi]
        exact ⟨rfl, rfl⟩
  | received a =>
    right
    simp only [AggWorld.step, AggValues.step]
    generalize hal : allocSets a.refs w.mem = q
    obtain ⟨ts, m⟩ := q
    obtain ⟨h1, h2, h3, h4, h5, h6, h7⟩ := allocSets_spec _ _ _ _ hal
    have hkm : w.mem.Kept { nums := m.nums, sets := (m.sets.alloc ts 0).2, exprs := (m.exprs.alloc a.exprs 0).2, meas := (m.meas.alloc a.measures 0).2 } (fun _ => True) (fun _ => True) := by
      refine ⟨h2, ?_, ?_, ?_⟩
      · intro t xs h; rw [h5]; exact GoHeap.alloc_old h
      · intro t xs _ h; rw [h4]; exact GoHeap.alloc_old h
      · intro t xs _ h; rw [h3]; exact GoHeap.alloc_old h
    have hsh : MAgg.Shows { nums := m.nums, sets := (m.sets.alloc ts 0).2, exprs := (m.exprs.alloc a.exprs 0).2, meas := (m.meas.alloc a.measures 0).2 } ⟨a.common, a.input, (m.meas.alloc a.measures 0).1,
          (m.exprs.alloc a.exprs 0).1, (m.sets.alloc ts 0).1, a.adv⟩ a :=
      ⟨rfl, rfl, GoHeap.alloc_new _ _ _, GoHeap.alloc_new _ _ _,
        readSets_iff.2 ⟨ts, GoHeap.alloc_new _ _ _, h1⟩, rfl⟩
    refine ⟨_, _, rfl, rfl, step_agg (kept' := kept) hw inv hkm
      (forall₂_snoc (hw.aggs.imp fun b vb h => h.keep hkm trivial trivial) hsh) ?_ ?_ ?_⟩
    · intro b hb c hcm
      rcases List.mem_append.1 hb with hb | hb
      · exact inv.below b hb c hcm
      · obtain rfl := List.mem_singleton.1 hb
        obtain ⟨vc, hvc⟩ := forall₂_left hw.builders c hcm
        obtain ⟨e1, e2⟩ := hvc.arrs
        constructor
        · intro e
          have : (m.exprs.alloc a.exprs 0).1.arr = c.exprs.arr := e
          rw [GoHeap.alloc_arr, h4] at this; omega
        · intro e
          have : (m.sets.alloc ts 0).1.arr = c.refs.arr := e
          rw [GoHeap.alloc_arr, h3] at this; omega
    · rw [h3]
      refine GoHeap.alloc_all (hin.mono fun t ht => ?_) fun t ht => (h7 t ht).2
      exact Nat.lt_of_lt_of_le ht h6
    · intro k s hs hn
      rw [h3]
      refine GoHeap.alloc_all (hap k s hs hn) fun t ht => ?_
      obtain ⟨xs, hx⟩ := forall₂_left hw.refs s (List.mem_of_getElem? hs)
      have := GoHeap.read_lt hx
      have := (h7 t ht).1
      omega
  | newBuilder input k =>
    simp only [AggWorld.step, AggValues.step]
    rcases forall₂_getElem? hw.meas k with ⟨h1, h2⟩ | ⟨s, ms, h1, h2, h3⟩
    · left; simp [h1, h2]
    · right
      simp only [h1, h2, Option.bind_some, Option.map_some]
      refine ⟨_, _, rfl, rfl, step_new hw inv
        ⟨fun _ _ h => h, fun _ _ h => h, fun _ _ _ h => GoHeap.alloc_old h,
          fun _ _ _ h => GoHeap.alloc_old h⟩ ⟨rfl, h3, GoHeap.alloc_new _ _ _, ?_⟩ rfl rfl ?_ ?_⟩
      · exact readSets_iff.2 ⟨[], GoHeap.alloc_new _ _ _, .nil⟩
      · exact GoHeap.alloc_all hin (by simp)
      · exact fun k s hs hn => GoHeap.alloc_all (hap k s hs hn) (by simp)
  | addExpression i e =>
    simp only [AggWorld.step, AggValues.step, AggValues.onBuilder]
    rcases forall₂_getElem? hw.builders i with ⟨h1, h2⟩ | ⟨b, vb, h1, h2, h3⟩
    · left; simp [h1, h2]
    · right
      simp only [h1, h2, Option.bind_some, Option.map_some, h3.2.2.1, AggBuilder.step,
        AggBuilder.addExpression]
      cases hf : findAddr e.addr 0 vb.exprs with
      | some r =>
        refine ⟨w, v, rfl, ?_, hw, inv⟩
        simp only
        congr 2
        apply List.ext_getElem?; intro j
        rw [List.getElem?_set]
        split
        · next e =>
          subst e
          rw [if_pos (List.getElem?_eq_some_iff.1 h2).1, h2]
        · rfl
      | none =>
        obtain ⟨s', ex, e1, r1, r2, r3, r4, r5⟩ := GoHeap.push_spec g e h3.2.2.1
        simp only [e1, Option.bind_some]
        refine ⟨_, _, rfl, rfl, step_builder hw inv h1 ⟨fun _ _ h => h, fun _ _ h => h, r2, fun _ _ _ h => h⟩
          (Nat.le_refl _) ⟨h3.1, h3.2.1, r1, h3.2.2.2⟩ ?_ (grown_refl _ _) (fun _ h => h) hin hap⟩
        rcases r3 with h | h
        · exact Or.inl h
        · exact Or.inr (Nat.le_of_eq h.symm)
  | addCube i k =>
    simp only [AggWorld.step, AggValues.step, AggValues.onBuilder]
    rcases forall₂_getElem? hw.builders i with ⟨h1, h2⟩ | ⟨b, vb, h1, h2, h3⟩
    · left; simp [h1, h2]
    · rcases forall₂_getElem? hw.refs k with ⟨h4, h5⟩ | ⟨s, xs, h4, h5, h6⟩
      · left; simp [h1, h4, h5]
      · right
        simp only [h1, h2, h4, h5, h6, Option.bind_some, Option.map_some, AggBuilder.step,
          AggBuilder.addCube]
        by_cases hl : xs.length > maxGroupingSize
        · simp only [if_pos hl]
          refine ⟨w, v, rfl, ?_, hw, inv⟩
          congr 2
          apply List.ext_getElem?; intro j
          rw [List.getElem?_set]
          split
          · next e =>
            subst e
            rw [if_pos (List.getElem?_eq_some_iff.1 h2).1, h2]
          · rfl
        · simp only [if_neg hl]
          obtain ⟨s', m', e1, a1⟩ := cubeLoop_spec g xs (List.range' 1 ((1 <<< xs.length) - 1)) w.mem b.refs _ h3.2.2.2
          simp only [e1, Option.bind_some]
          exact ⟨_, _, rfl, rfl, step_sets hw inv h1 h3 a1 (fun _ h => h) (fun _ _ _ _ => trivial)⟩
  | addRollup i k =>
    simp only [AggWorld.step, AggValues.step, AggValues.onBuilder]
    rcases forall₂_getElem? hw.builders i with ⟨h1, h2⟩ | ⟨b, vb, h1, h2, h3⟩
    · left; simp [h1, h2]
    · rcases forall₂_getElem? hw.refs k with ⟨h4, h5⟩ | ⟨s, xs, h4, h5, h6⟩
      · left; simp [h1, h4, h5]
      · right
        simp only [h1, h2, h4, h5, Option.bind_some, Option.map_some, AggBuilder.step,
          AggBuilder.addRollup]
        obtain ⟨s', m', e1, a1⟩ := rollupLoop_spec g s xs s.len w.mem b.refs _ (Nat.le_refl _) h6 h3.2.2.2
        simp only [e1, Option.bind_some, GoHeap.read_len h6]
        refine ⟨_, _, rfl, rfl, step_sets hw inv h1 h3 a1 (fun _ h => by simp [AggCall.keeps, h]) ?_⟩
        intro k' s2 hs2 hn
        simp only [AggCall.keeps, List.singleton_append, List.mem_cons, not_or] at hn
        exact (inv.given k' k s2 s hn.1 hs2 h4).symm
  | addGroupingSet i k =>
    simp only [AggWorld.step, AggValues.step, AggValues.onBuilder]
    rcases forall₂_getElem? hw.builders i with ⟨h1, h2⟩ | ⟨b, vb, h1, h2, h3⟩
    · left; simp [h1, h2]
    · rcases forall₂_getElem? hw.refs k with ⟨h4, h5⟩ | ⟨s, xs, h4, h5, h6⟩
      · left; simp [h1, h4, h5]
      · right
        simp only [h1, h2, h4, h5, Option.bind_some, Option.map_some, AggBuilder.step,
          AggBuilder.addGroupingSet]
        obtain ⟨s', sets, e1, a1⟩ := pushSet_spec g h3.2.2.2 h6
        simp only [e1, Option.bind_some]
        refine ⟨_, _, rfl, rfl, step_sets hw inv h1 h3 a1 (fun _ h => by simp [AggCall.keeps, h]) ?_⟩
        intro k' s2 hs2 hn
        simp only [AggCall.keeps, List.singleton_append, List.mem_cons, not_or] at hn
        exact (inv.given k' k s2 s hn.1 hs2 h4).symm
  | replaceInput i r =>
    simp only [AggWorld.step, AggValues.step, AggValues.onBuilder]
    rcases forall₂_getElem? hw.builders i with ⟨h1, h2⟩ | ⟨b, vb, h1, h2, h3⟩
    · left; simp [h1, h2]
    · right
      simp only [h1, h2, Option.bind_some, Option.map_some, AggBuilder.step]
      exact ⟨_, _, rfl, rfl, step_builder hw inv h1 (AggMem.Kept.refl _ _ _) (Nat.le_refl _)
        ⟨rfl, h3.2.1, h3.2.2.1, h3.2.2.2⟩ (grown_refl _ _) (grown_refl _ _) (fun _ h => h) hin hap⟩
  | clearMeasures i =>
    simp only [AggWorld.step, AggValues.step, AggValues.onBuilder]
    rcases forall₂_getElem? hw.builders i with ⟨h1, h2⟩ | ⟨b, vb, h1, h2, h3⟩
    · left; simp [h1, h2]
    · right
      simp only [h1, h2, Option.bind_some, Option.map_some, AggBuilder.step]
      exact ⟨_, _, rfl, rfl, step_builder hw inv h1
        ⟨fun _ _ h => h, fun _ _ h => GoHeap.alloc_old h, fun _ _ _ h => h, fun _ _ _ h => h⟩ (Nat.le_refl _)
        ⟨h3.1, GoHeap.alloc_new _ _ _, h3.2.2.1, h3.2.2.2⟩ (grown_refl _ _) (grown_refl _ _)
        (fun _ h => h) hin hap⟩
  | clearGrouping i =>
    simp only [AggWorld.step, AggValues.step, AggValues.onBuilder]
    rcases forall₂_getElem? hw.builders i with ⟨h1, h2⟩ | ⟨b, vb, h1, h2, h3⟩
    · left; simp [h1, h2]
    · right
      simp only [h1, h2, Option.bind_some, Option.map_some, AggBuilder.step]
      refine ⟨_, _, rfl, rfl, step_builder hw inv h1
        ⟨fun _ _ h => h, fun _ _ h => h, fun _ _ _ h => GoHeap.alloc_old h,
          fun _ _ _ h => GoHeap.alloc_old h⟩ (Nat.le_refl _)
        ⟨h3.1, h3.2.1, GoHeap.alloc_new _ _ _, ?_⟩ (Or.inr (Nat.le_refl _)) (Or.inr (Nat.le_refl _))
        (fun _ h => h) ?_ ?_⟩
      · exact readSets_iff.2 ⟨[], GoHeap.alloc_new _ _ _, .nil⟩
      · exact GoHeap.alloc_all hin (by simp)
      · exact fun k s hs hn => GoHeap.alloc_all (hap k s hs hn) (by simp)
  | build i =>
    simp only [AggWorld.step, AggValues.step]
    rcases forall₂_getElem? hw.builders i with ⟨h1, h2⟩ | ⟨b, vb, h1, h2, h3⟩
    · left; simp [h1, h2]
    · right
      have hv : b.value w.mem = some vb := by
        simp only [MBuilder.value, h3.2.1, h3.2.2.1, h3.2.2.2, Option.bind_some, h3.1]
      simp only [h1, h2, hv, Option.bind_some, Option.map_some]
      by_cases hval : vb.validate = true
      · simp only [if_pos hval]
        refine ⟨_, _, rfl, rfl, step_agg (kept' := kept) hw inv (AggMem.Kept.refl _ _ _)
          (forall₂_snoc hw.aggs ⟨rfl, h3.1, h3.2.1, h3.2.2.1, h3.2.2.2, rfl⟩) ?_ hin hap⟩
        intro a ha c hcm
        rcases List.mem_append.1 ha with ha | ha
        · exact inv.below a ha c hcm
        · obtain rfl := List.mem_singleton.1 ha
          obtain ⟨j, hj⟩ := List.mem_iff_getElem?.1 hcm
          by_cases hij : i = j
          · subst hij
            rw [h1] at hj; cases hj
            exact ⟨fun _ => Nat.le_refl _, fun _ => Nat.le_refl _⟩
          · obtain ⟨e1, e2⟩ := inv.own i j b c hij h1 hj
            exact ⟨fun e => absurd e e1, fun e => absurd e e2⟩
      · simp only [if_neg hval]
        exact ⟨w, v, rfl, rfl, hw, inv⟩
  | toBuilder j =>
    simp only [AggWorld.step, AggValues.step]
    rcases forall₂_getElem? hw.aggs j with ⟨h1, h2⟩ | ⟨a, va, h1, h2, h3⟩
    · left; simp [h1, h2]
    · right
      obtain ⟨ts, e1, e2⟩ := readSets_iff.1 h3.2.2.2.2.1
      simp only [h1, h2, h3.2.2.1, h3.2.2.2.1, e1, Option.bind_some, Option.map_some]
      refine ⟨_, _, rfl, rfl, step_new hw inv (kept_alloc _ _ _ _ _ _ _)
        ⟨h3.2.1, GoHeap.alloc_new _ _ _, GoHeap.alloc_new _ _ _, ?_⟩ rfl rfl ?_ ?_⟩
      · exact readSets_iff.2 ⟨ts, GoHeap.alloc_new _ _ _, e2⟩
      · exact GoHeap.alloc_all hin (GoHeap.read_mem e1 hin)
      · exact fun k s hs hn => GoHeap.alloc_all (hap k s hs hn) (GoHeap.read_mem e1 (hap k s hs hn))
  | copy j input =>
    simp only [AggWorld.step, AggValues.step]
    rcases forall₂_getElem? hw.aggs j with ⟨h1, h2⟩ | ⟨a, va, h1, h2, h3⟩
    · left; simp [h1, h2]
    · right
      simp only [h1, h2, Option.bind_some, Option.map_some]
      refine ⟨_, _, rfl, rfl, step_agg (kept' := kept) hw inv (AggMem.Kept.refl _ _ _)
        (forall₂_snoc hw.aggs ⟨h3.1, rfl, h3.2.2⟩) ?_ hin hap⟩
      intro c hcm d hd
      rcases List.mem_append.1 hcm with hcm | hcm
      · exact inv.below c hcm d hd
      · obtain rfl := List.mem_singleton.1 hcm
        exact inv.below a (List.mem_of_getElem? h1) d hd
  | setInput j input =>
    simp only [AggWorld.step, AggValues.step, AggValues.onAgg]
    rcases forall₂_getElem? hw.aggs j with ⟨h1, h2⟩ | ⟨a, va, h1, h2, h3⟩
    · left; simp [h1, h2]
    · right
      simp only [h1, h2, Option.bind_some, Option.map_some]
      refine ⟨_, _, rfl, rfl, step_agg (kept' := kept) hw inv (AggMem.Kept.refl _ _ _)
        (forall₂_set hw.aggs j ⟨h3.1, rfl, h3.2.2⟩ fun _ _ _ _ _ h => h) ?_ hin hap⟩
      intro c hcm d hd
      rcases List.mem_or_eq_of_mem_set hcm with hcm | rfl
      · exact inv.below c hcm d hd
      · exact inv.below a (List.mem_of_getElem? h1) d hd
  | setMeasures j k =>
    simp only [AggWorld.step, AggValues.step, AggValues.onAgg]
    rcases forall₂_getElem? hw.meas k with ⟨h4, h5⟩ | ⟨s, ms, h4, h5, h6⟩
    · left; simp [h4, h5]
    · rcases forall₂_getElem? hw.aggs j with ⟨h1, h2⟩ | ⟨a, va, h1, h2, h3⟩
      · left; simp [h1, h2, h5]
      · right
        simp only [h1, h2, h4, h5, Option.bind_some, Option.map_some]
        refine ⟨_, _, rfl, rfl, step_agg (kept' := kept) hw inv (AggMem.Kept.refl _ _ _)
          (forall₂_set hw.aggs j ⟨h3.1, h3.2.1, h6, h3.2.2.2⟩ fun _ _ _ _ _ h => h) ?_ hin hap⟩
        intro c hcm d hd
        rcases List.mem_or_eq_of_mem_set hcm with hcm | rfl
        · exact inv.below c hcm d hd
        · exact inv.below a (List.mem_of_getElem? h1) d hd
  | setGroupingExpressions j es =>
    simp only [AggWorld.step, AggValues.step, AggValues.onAgg]
    rcases forall₂_getElem? hw.aggs j with ⟨h1, h2⟩ | ⟨a, va, h1, h2, h3⟩
    · left; simp [h1, h2]
    · right
      simp only [h1, h2, Option.bind_some, Option.map_some]
      have hk : w.mem.Kept { w.mem with exprs := (w.mem.exprs.alloc es 0).2 } (fun _ => True) (fun _ => True) :=
        ⟨fun _ _ h => h, fun _ _ h => h, fun _ _ _ h => GoHeap.alloc_old h, fun _ _ _ h => h⟩
      refine ⟨_, _, rfl, rfl, step_agg (kept' := kept) hw inv hk
        (forall₂_set hw.aggs j ⟨h3.1, h3.2.1, h3.2.2.1, GoHeap.alloc_new _ _ _, h3.2.2.2.2⟩
          fun _ _ _ _ _ h => h.keep hk trivial trivial) ?_ hin hap⟩
      intro c hcm d hd
      rcases List.mem_or_eq_of_mem_set hcm with hcm | rfl
      · exact inv.below c hcm d hd
      · obtain ⟨vd, hvd⟩ := forall₂_left hw.builders d hd
        refine ⟨fun e => ?_, (inv.below a (List.mem_of_getElem? h1) d hd).2⟩
        have : w.mem.exprs.length = d.exprs.arr := e
        have := hvd.arrs.1
        omega
  | setGroupingReferences j ks =>
    simp only [AggWorld.step, AggValues.step, AggValues.onAgg]
    rcases givenRefs_mapM hw ks with ⟨h4, h5⟩ | ⟨ts, rs, h4, h5, h6, h7⟩
    · left; simp [h4, h5]
    · rcases forall₂_getElem? hw.aggs j with ⟨h1, h2⟩ | ⟨a, va, h1, h2, h3⟩
      · left; simp [h1, h2, h5]
      · right
        simp only [h1, h2, h4, h5, Option.bind_some, Option.map_some]
        have hk : w.mem.Kept { w.mem with sets := (w.mem.sets.alloc ts 0).2 } (fun _ => True) (fun _ => True) :=
          ⟨fun _ _ h => h, fun _ _ h => h, fun _ _ _ h => h, fun _ _ _ h => GoHeap.alloc_old h⟩
        refine ⟨_, _, rfl, rfl, step_agg (kept' := ks ++ kept) hw inv hk
          (forall₂_set hw.aggs j ⟨h3.1, h3.2.1, h3.2.2.1, h3.2.2.2.1, ?_, h3.2.2.2.2.2⟩
            fun _ _ _ _ _ h => h.keep hk trivial trivial) ?_ ?_ ?_⟩
        · exact readSets_iff.2 ⟨ts, GoHeap.alloc_new _ _ _, h6⟩
        · intro c hcm d hd
          rcases List.mem_or_eq_of_mem_set hcm with hcm | rfl
          · exact inv.below c hcm d hd
          · obtain ⟨vd, hvd⟩ := forall₂_left hw.builders d hd
            refine ⟨(inv.below a (List.mem_of_getElem? h1) d hd).1, fun e => ?_⟩
            have : w.mem.sets.length = d.refs.arr := e
            have := hvd.arrs.2
            omega
        · refine GoHeap.alloc_all hin fun t ht => ?_
          obtain ⟨xs, hx⟩ := forall₂_left h6 t ht
          exact GoHeap.read_lt hx
        · intro k s hs hn
          simp only [List.mem_append, not_or] at hn
          refine GoHeap.alloc_all (hap k s hs hn.2) fun t ht => ?_
          obtain ⟨k', hk', e⟩ := h7 t ht
          exact inv.given k' k t s (fun h => hn.1 (h ▸ hk')) e hs

/-- a whole program, in memory and on values -/
theorem run_sim (g : Growth) : ∀ (cs : List AggCall) (w : AggWorld) (v : AggValues) (kept : List Nat),
    w.Shows v → w.Inv kept → Careful kept cs →
    (AggWorld.run g cs w = none ∧ AggValues.run cs v = none) ∨
    ∃ w' v' kept', AggWorld.run g cs w = some w' ∧ AggValues.run cs v = some v' ∧ w'.Shows v' ∧ w'.Inv kept'
  | [], w, v, kept, hw, inv, _ => Or.inr ⟨w, v, kept, rfl, rfl, hw, inv⟩
  | c :: cs, w, v, kept, hw, inv, hc => by
      simp only [AggWorld.run, AggValues.run]
      rcases step_sim g hw inv c hc.1 with ⟨h1, h2⟩ | ⟨w', v', h1, h2, h3, h4⟩
      · left; simp [h1, h2]
      · simp only [h1, h2, Option.bind_some]
        exact run_sim g cs w' v' _ h3 h4 hc.2

end Verif
