import Verif.Lemmas.ExtSet
/-! # Lemmas about writing and reading extension sets -/

namespace Verif

/-! ### insertion sort -/

theorem swapAt_adj {α : Type} (pre : List α) (y x : α) (post : List α) (n : Nat)
    (h : n = pre.length) : swapAt (pre ++ y :: x :: post) (n + 1) n = pre ++ x :: y :: post := by
  subst h
  unfold swapAt
  have h1 : (pre ++ y :: x :: post)[pre.length + 1]? = some x := by
    rw [List.getElem?_append_right (by omega)]; simp
  have h2 : (pre ++ y :: x :: post)[pre.length]? = some y := by simp
  rw [h1, h2]
  simp only
  rw [List.set_append_right _ _ (by omega), List.set_append_right _ _ (by omega)]
  simp

/-- a comparator by a key of the elements -/
def ByKey {α : Type} (less : List α → Nat → Nat → Res Bool) (key : α → UInt32) (l0 : List α) : Prop :=
  ∀ (l : List α) (i j : Nat) (hi : i < l.length) (hj : j < l.length), l.Perm l0 →
    less l i j = .ok (decide (key l[i] < key l[j]))

theorem bubble_spec {α : Type} {less : List α → Nat → Nat → Res Bool} {key : α → UInt32}
    {l0 : List α} (hk : ByKey less key l0) : ∀ (j : Nat) (pre : List α) (x : α) (post : List α),
    pre.length = j → (pre ++ x :: post).Perm l0 → pre.Pairwise (fun a b => key a ≤ key b) →
    ∃ r, bubble less 0 j (pre ++ x :: post) = .ok (r ++ post) ∧ r.Perm (pre ++ [x]) ∧
      r.Pairwise (fun a b => key a ≤ key b)
  | 0, pre, x, post, hl, _, _ => by
    have : pre = [] := List.length_eq_zero_iff.1 hl
    subst this
    exact ⟨[x], by simp [bubble], by simp, by simp⟩
  | j + 1, pre, x, post, hl, hp, hs => by
    obtain ⟨pre', y, rfl⟩ : ∃ pre' y, pre = pre' ++ [y] := by
      rcases List.eq_nil_or_concat pre with h | ⟨p, y, h⟩
      · subst h; simp at hl
      · exact ⟨p, y, by simpa using h⟩
    have hl' : pre'.length = j := by simpa using hl
    have e : pre' ++ [y] ++ x :: post = pre' ++ y :: x :: post := by simp
    have hlt : less (pre' ++ [y] ++ x :: post) (j + 1) j = .ok (decide (key x < key y)) := by
      have := hk (pre' ++ [y] ++ x :: post) (j + 1) j (by simp; omega) (by simp; omega) hp
      rw [this]
      congr 2
      simp [List.getElem_append, hl']
    simp only [bubble, hlt, Res.ok_bind]
    rw [List.pairwise_append] at hs
    by_cases hxy : key x < key y
    · simp only [hxy, decide_true, if_true, Nat.zero_add]
      rw [e, swapAt_adj _ _ _ _ _ hl'.symm]
      obtain ⟨r, h1, h2, h3⟩ := bubble_spec hk j pre' x (y :: post) hl'
        (by
          refine List.Perm.trans ?_ hp
          rw [e]
          exact List.Perm.append_left _ (List.Perm.swap _ _ _)) hs.1
      refine ⟨r ++ [y], by rw [h1]; simp, ?_, ?_⟩
      · refine (h2.append_right [y]).trans ?_
        rw [List.append_assoc, List.append_assoc]
        exact List.Perm.append_left _ (List.Perm.swap _ _ _)
      · rw [List.pairwise_append]
        refine ⟨h3, by simp, ?_⟩
        intro a ha b hb
        simp only [List.mem_singleton] at hb
        subst hb
        rcases List.mem_append.1 (h2.mem_iff.1 ha) with ha | ha
        · exact hs.2.2 a ha b (by simp)
        · simp only [List.mem_singleton] at ha
          subst ha
          exact UInt32.le_of_lt hxy
    · simp only [hxy, decide_false, Bool.false_eq_true, if_false]
      refine ⟨pre' ++ [y] ++ [x], by simp, List.Perm.refl _, ?_⟩
      rw [List.pairwise_append]
      refine ⟨by rw [List.pairwise_append]; exact hs, by simp, ?_⟩
      intro a ha b hb
      simp only [List.mem_singleton] at hb
      subst hb
      have hyx : key y ≤ key b := UInt32.not_lt.1 hxy
      rcases List.mem_append.1 ha with ha | ha
      · exact UInt32.le_trans (hs.2.2 a ha y (by simp)) hyx
      · simp only [List.mem_singleton] at ha
        subst ha
        exact hyx

theorem insertFrom_spec {α : Type} {less : List α → Nat → Nat → Res Bool} {key : α → UInt32}
    {l0 : List α} (hk : ByKey less key l0) : ∀ (post pre : List α),
    (pre ++ post).Perm l0 → pre.Pairwise (fun a b => key a ≤ key b) →
    ∃ r, insertFrom less 0 post.length pre.length (pre ++ post) = .ok r ∧ r.Perm l0 ∧
      r.Pairwise (fun a b => key a ≤ key b)
  | [], pre, hp, hs => ⟨pre, by simp [insertFrom], by simpa using hp, hs⟩
  | x :: post, pre, hp, hs => by
    obtain ⟨r, h1, h2, h3⟩ := bubble_spec hk pre.length pre x post rfl hp hs
    have hl : r.length = pre.length + 1 := by simpa using h2.length_eq
    obtain ⟨r', h4, h5, h6⟩ := insertFrom_spec hk post r
      (by
        refine List.Perm.trans ?_ hp
        simpa using h2.append_right post) h3
    refine ⟨r', ?_, h5, h6⟩
    simp only [List.length_cons, insertFrom, h1, Res.ok_bind]
    rw [← hl]
    exact h4

/-- `sort.Slice` of a whole slice with a comparator by key sorts it. -/
theorem sortSlice_spec {α : Type} {less : List α → Nat → Nat → Res Bool} {key : α → UInt32}
    (l : List α) (hk : ByKey less key l) :
    ∃ r, sortSlice less 0 l.length l = .ok r ∧ r.Perm l ∧ r.Pairwise (fun a b => key a ≤ key b) := by
  cases l with
  | nil => exact ⟨[], by simp [sortSlice, insertFrom], by simp, by simp⟩
  | cons x post =>
    obtain ⟨r, h1, h2, h3⟩ := insertFrom_spec hk post [x] (by simp) (by simp)
    exact ⟨r, by simpa [sortSlice] using h1, h2, h3⟩

/-- two sorted arrangements of the same elements with different keys are equal -/
theorem sorted_unique {α : Type} (key : α → UInt32) {r r' : List α} (hp : r.Perm r')
    (h : r.Pairwise (fun a b => key a ≤ key b)) (h' : r'.Pairwise (fun a b => key a ≤ key b))
    (hi : ∀ a ∈ r, ∀ b ∈ r, key a = key b → a = b) : r = r' := by
  refine List.Perm.eq_of_pairwise (le := fun a b => key a ≤ key b) ?_ h h' hp
  intro a b ha hb h1 h2
  exact hi a ha b (hp.mem_iff.2 hb) (UInt32.le_antisymm h1 h2)

theorem sortSlice_small {α : Type} (less : List α → Nat → Nat → Res Bool) (off n : Nat) (l : List α)
    (h : n ≤ 1) : sortSlice less off n l = .ok l := by
  have : n - 1 = 0 := by omega
  simp [sortSlice, this, insertFrom]

/-- the comparator answers for every pair of indices in range -/
def Answers {α : Type} (less : List α → Nat → Nat → Res Bool) (n : Nat) (l0 : List α) : Prop :=
  ∀ (l : List α) (i j : Nat), l.Perm l0 → i < n → j < n → ∃ b, less l i j = .ok b

theorem bubble_perm {α : Type} {less : List α → Nat → Nat → Res Bool} {n : Nat} {l0 : List α}
    (hk : Answers less n l0) (fix : List α) : ∀ (j : Nat) (pre : List α) (x : α) (post : List α),
    pre.length = j → j < n → (fix ++ (pre ++ x :: post)).Perm l0 →
    ∃ r, bubble less fix.length j (fix ++ (pre ++ x :: post)) = .ok (fix ++ (r ++ post)) ∧
      r.Perm (pre ++ [x])
  | 0, pre, x, post, hl, _, _ => by
    have : pre = [] := List.length_eq_zero_iff.1 hl
    subst this
    exact ⟨[x], by simp [bubble], by simp⟩
  | j + 1, pre, x, post, hl, hn, hp => by
    obtain ⟨pre', y, rfl⟩ : ∃ pre' y, pre = pre' ++ [y] := by
      rcases List.eq_nil_or_concat pre with h | ⟨p, y, h⟩
      · subst h; simp at hl
      · exact ⟨p, y, by simpa using h⟩
    have hl' : pre'.length = j := by simpa using hl
    obtain ⟨b, hb⟩ := hk _ (j + 1) j hp hn (by omega)
    simp only [bubble, hb, Res.ok_bind]
    cases b
    · exact ⟨pre' ++ [y] ++ [x], by simp, List.Perm.refl _⟩
    · have e : fix ++ (pre' ++ [y] ++ x :: post) = (fix ++ pre') ++ y :: x :: post := by simp
      have e2 : fix ++ pre' ++ x :: y :: post = fix ++ (pre' ++ x :: y :: post) := by simp
      simp only [if_true]
      rw [e, ← Nat.add_assoc, swapAt_adj _ _ _ _ _ (by simp [hl']), e2]
      obtain ⟨r, h1, h2⟩ := bubble_perm hk fix j pre' x (y :: post) hl' (by omega)
        (by
          refine List.Perm.trans ?_ hp
          rw [e, ← e2]
          exact List.Perm.append_left _ (List.Perm.swap _ _ _))
      refine ⟨r ++ [y], by rw [h1]; simp, ?_⟩
      refine (h2.append_right [y]).trans ?_
      rw [List.append_assoc, List.append_assoc]
      exact List.Perm.append_left _ (List.Perm.swap _ _ _)

theorem insertFrom_perm {α : Type} {less : List α → Nat → Nat → Res Bool} {n : Nat} {l0 : List α}
    (hk : Answers less n l0) (fix : List α) : ∀ (post pre : List α),
    pre.length + post.length ≤ n → (fix ++ (pre ++ post)).Perm l0 →
    ∃ r, insertFrom less fix.length post.length pre.length (fix ++ (pre ++ post)) = .ok (fix ++ r) ∧
      r.Perm (pre ++ post)
  | [], pre, _, hp => ⟨pre, by simp [insertFrom], by simp⟩
  | x :: post, pre, hn, hp => by
    simp only [List.length_cons] at hn
    obtain ⟨r, h1, h2⟩ := bubble_perm hk fix pre.length pre x post rfl (by omega) hp
    have hl : r.length = pre.length + 1 := by simpa using h2.length_eq
    have h2' : (r ++ post).Perm (pre ++ x :: post) := by simpa using h2.append_right post
    obtain ⟨r', h4, h5⟩ := insertFrom_perm hk fix post r (by omega)
      ((List.Perm.append_left fix h2').trans hp)
    refine ⟨r', ?_, h5.trans h2'⟩
    simp only [List.length_cons, insertFrom, h1, Res.ok_bind]
    rw [← hl]
    exact h4

/-- Whatever the comparator answers, the result is a rearrangement of the elements sorted. -/
theorem sortSlice_perm {α : Type} {less : List α → Nat → Nat → Res Bool} (fix l : List α)
    (hk : Answers less l.length (fix ++ l)) :
    ∃ r, sortSlice less fix.length l.length (fix ++ l) = .ok (fix ++ r) ∧ r.Perm l := by
  cases l with
  | nil => exact ⟨[], by simp [sortSlice, insertFrom], by simp⟩
  | cons x post =>
    obtain ⟨r, h1, h2⟩ := insertFrom_perm hk fix post [x] (by simp; omega) (by simp)
    exact ⟨r, by simpa [sortSlice] using h1, h2⟩

/-! ### comparators -/

theorem lessURN_byKey (l0 : List (UInt32 × String)) : ByKey lessURN Prod.fst l0 := by
  intro l i j hi hj _
  simp [lessURN, Res.index_nat, hi, hj]

theorem lessDecl_byKey (f : Decl → Res UInt32) (l0 : List Decl)
    (h : ∀ d ∈ l0, f d = .ok d.anchor) : ByKey (lessDecl f) Decl.anchor l0 := by
  intro l i j hi hj hp
  have h1 := h l[i] (hp.mem_iff.1 (List.getElem_mem hi))
  have h2 := h l[j] (hp.mem_iff.1 (List.getElem_mem hj))
  simp [lessDecl, Res.index_nat, hi, hj, h1, h2]

theorem lessFunc_answers (n : Nat) (l0 : List Decl) (h : n ≤ l0.length) :
    Answers (lessDecl Decl.funcAnchor) n l0 := by
  intro l i j hp hi hj
  have hl := hp.length_eq
  have : ∀ d : Decl, ∃ x, d.funcAnchor = .ok x := by intro d; cases d <;> exact ⟨_, rfl⟩
  obtain ⟨x, hx⟩ := this (l[i]'(by omega))
  obtain ⟨y, hy⟩ := this (l[j]'(by omega))
  exact ⟨decide (x < y), by
    simp [lessDecl, Res.index_nat, show i < l.length by omega, show j < l.length by omega, hx, hy]⟩

/-! ### maps built by loops -/

theorem readURNs_get : ∀ (l : List (UInt32 × String)) (m : GoMap UInt32 String),
    (l.map Prod.fst).Nodup → ∀ a u, (readURNs l m).get a = some u ↔
      (a, u) ∈ l ∨ (a ∉ l.map Prod.fst ∧ m.get a = some u)
  | [], m, _, a, u => by simp [readURNs]
  | (b, v) :: l, m, h, a, u => by
    simp only [List.map_cons, List.nodup_cons] at h
    rw [readURNs, readURNs_get l _ h.2, GoMap.get_set]
    by_cases e : a = b
    · subst e
      have : (a, u) ∉ l := fun hh => h.1 (List.mem_map.2 ⟨_, hh, rfl⟩)
      simp [this, h.1, eq_comm]
    · simp [e]

theorem urnBackRef_get : ∀ (l : List (UInt32 × String)) (m : GoMap String UInt32),
    (∀ a b u, (a, u) ∈ l → (b, u) ∈ l → a = b) → ∀ a u, (urnBackRef l m).get u = some a ↔
      (a, u) ∈ l ∨ ((∀ b, (b, u) ∉ l) ∧ m.get u = some a)
  | [], m, _, a, u => by simp [urnBackRef]
  | (b, v) :: l, m, h, a, u => by
    rw [urnBackRef, urnBackRef_get l _ (fun a b u h1 h2 => h a b u (by simp [h1]) (by simp [h2])),
      GoMap.get_set]
    by_cases e : u = v
    · subst e
      simp only [if_true, List.mem_cons, Prod.mk.injEq, and_true]
      constructor
      · rintro (h1 | ⟨_, h2⟩)
        · exact .inl (.inr h1)
        · injection h2 with h2; exact .inl (.inl h2.symm)
      · rintro ((rfl | h1) | ⟨h1, _⟩)
        · by_cases hx : ∃ c, (c, u) ∈ l
          · obtain ⟨c, hc⟩ := hx
            have := h a c u (by simp) (by simp [hc])
            subst this
            exact .inl hc
          · exact .inr ⟨fun c hc => hx ⟨c, hc⟩, rfl⟩
        · exact .inl h1
        · exact absurd (.inl rfl) (h1 b)
    · simp [e]

/-! ### reading declarations -/

theorem readDecls_cons (loaded : String → Bool) (d : Decl) (ds : List (Option Decl)) (s : ExtSet) :
    readDecls loaded (some d :: ds) s = (resolveRef loaded s.urns d.urnRef >>= fun u =>
      readDecls loaded ds (s.withTable d.kind ((s.table d.kind).encode d.anchor ⟨u, d.name⟩))) := by
  cases d <;> rfl

theorem readDecls_spec (loaded : String → Bool) (f : Decl → ExtId) : ∀ (ds : List Decl) (s : ExtSet),
    (∀ d ∈ ds, s.urns.get d.urnRef = some (f d).urn ∧ loaded (f d).urn = true ∧
      (f d).name = d.name) →
    (∀ d ∈ ds, ∀ e ∈ ds, d.kind = e.kind → (d.anchor = e.anchor ↔ f d = f e)) →
    ∃ s', readDecls loaded (ds.map some) s = .ok s' ∧ s'.urns = s.urns ∧
      (∀ k a id, s'.decode k a = some id ↔ (∃ d ∈ ds, d.kind = k ∧ d.anchor = a ∧ f d = id) ∨
        ((∀ d ∈ ds, ¬ (d.kind = k ∧ d.anchor = a)) ∧ s.decode k a = some id)) ∧
      (∀ k a id, s'.anchor k id = some a ↔ (∃ d ∈ ds, d.kind = k ∧ d.anchor = a ∧ f d = id) ∨
        ((∀ d ∈ ds, ¬ (d.kind = k ∧ f d = id)) ∧ s.anchor k id = some a))
  | [], s, _, _ => ⟨s, rfl, rfl, by simp, by simp⟩
  | d :: ds, s, h1, h2 => by
    obtain ⟨hr, hl, hn⟩ := h1 d (by simp)
    have hid : (⟨(f d).urn, d.name⟩ : ExtId) = f d := by rw [← hn]
    obtain ⟨s', e, hu, hd, ha⟩ := readDecls_spec loaded f ds
      (s.withTable d.kind ((s.table d.kind).encode d.anchor (f d)))
      (fun e he => by simpa using h1 e (by simp [he]))
      (fun x hx y hy => h2 x (by simp [hx]) y (by simp [hy]))
    refine ⟨s', ?_, by simpa using hu, ?_, ?_⟩
    · simp only [List.map_cons, readDecls_cons, resolveRef, hr, hl, if_true, Res.ok_bind, hid]
      exact e
    · intro k a id
      rw [hd]
      have hstep : ExtSet.decode (s.withTable d.kind ((s.table d.kind).encode d.anchor (f d))) k a =
          if d.kind = k ∧ d.anchor = a then some (f d) else s.decode k a := by
        simp only [ExtSet.decode, table_withTable]
        by_cases ek : k = d.kind
        · subst ek
          simp only [if_true, IdTable.encode, GoMap.get_set, true_and, eq_comm]
        · simp [ek, Ne.symm ek]
      rw [hstep]
      constructor
      · rintro (⟨x, hx, h3⟩ | ⟨h3, h4⟩)
        · exact .inl ⟨x, by simp [hx], h3⟩
        · split at h4
          · next e => injection h4 with h4; exact .inl ⟨d, by simp, e.1, e.2, h4⟩
          · next e =>
            refine .inr ⟨fun x hx => ?_, h4⟩
            rcases List.mem_cons.1 hx with rfl | hx
            · exact e
            · exact h3 x hx
      · rintro (⟨x, hx, h3, h4, h5⟩ | ⟨h3, h4⟩)
        · rcases List.mem_cons.1 hx with rfl | hx
          · by_cases hex : ∃ y ∈ ds, y.kind = k ∧ y.anchor = a
            · obtain ⟨y, hy, hy1, hy2⟩ := hex
              have := (h2 x (by simp) y (by simp [hy]) (h3.trans hy1.symm)).1 (h4.trans hy2.symm)
              exact .inl ⟨y, hy, hy1, hy2, by rw [← this]; exact h5⟩
            · refine .inr ⟨fun y hy hh => hex ⟨y, hy, hh⟩, ?_⟩
              rw [if_pos ⟨h3, h4⟩, h5]
          · exact .inl ⟨x, hx, h3, h4, h5⟩
        · refine .inr ⟨fun x hx => h3 x (by simp [hx]), ?_⟩
          rw [if_neg (h3 d (by simp))]
          exact h4
    · intro k a id
      rw [ha]
      have hstep : ExtSet.anchor (s.withTable d.kind ((s.table d.kind).encode d.anchor (f d))) k id =
          if d.kind = k ∧ f d = id then some d.anchor else s.anchor k id := by
        simp only [ExtSet.anchor, table_withTable]
        by_cases ek : k = d.kind
        · subst ek
          simp only [if_true, IdTable.encode, GoMap.get_set, true_and, eq_comm]
        · simp [ek, Ne.symm ek]
      rw [hstep]
      constructor
      · rintro (⟨x, hx, h3⟩ | ⟨h3, h4⟩)
        · exact .inl ⟨x, by simp [hx], h3⟩
        · split at h4
          · next e => injection h4 with h4; exact .inl ⟨d, by simp, e.1, h4, e.2⟩
          · next e =>
            refine .inr ⟨fun x hx => ?_, h4⟩
            rcases List.mem_cons.1 hx with rfl | hx
            · exact e
            · exact h3 x hx
      · rintro (⟨x, hx, h3, h4, h5⟩ | ⟨h3, h4⟩)
        · rcases List.mem_cons.1 hx with rfl | hx
          · by_cases hex : ∃ y ∈ ds, y.kind = k ∧ f y = id
            · obtain ⟨y, hy, hy1, hy2⟩ := hex
              have := (h2 x (by simp) y (by simp [hy]) (h3.trans hy1.symm)).2 (h5.trans hy2.symm)
              exact .inl ⟨y, hy, hy1, by rw [← this]; exact h4, hy2⟩
            · refine .inr ⟨fun y hy hh => hex ⟨y, hy, hh⟩, ?_⟩
              rw [if_pos ⟨h3, h5⟩, h4]
          · exact .inl ⟨x, hx, h3, h4, h5⟩
        · refine .inr ⟨fun x hx => h3 x (by simp [hx]), ?_⟩
          rw [if_neg (h3 d (by simp))]
          exact h4

/-! ### writing -/

/-- the reference the set writes for the URN of an id -/
def ExtSet.ref (s : ExtSet) (id : ExtId) : UInt32 := refOf (urnBackRef s.urns.entries .empty) id

theorem refOf_perm {s : ExtSet} (ht : s.Tidy) {l : List (UInt32 × String)}
    (hp : l.Perm s.urns.entries) (id : ExtId) : refOf (urnBackRef l .empty) id = s.ref id := by
  have hf : ∀ l' : List (UInt32 × String), l'.Perm s.urns.entries →
      ∀ a b u, (a, u) ∈ l' → (b, u) ∈ l' → a = b := by
    intro l' hp' a b u h1 h2
    exact ht.2.1 a b u ((GoMap.get_eq_some _ _ _).2 (hp'.mem_iff.1 h1))
      ((GoMap.get_eq_some _ _ _).2 (hp'.mem_iff.1 h2))
  have : (urnBackRef l .empty).get id.urn = (urnBackRef s.urns.entries .empty).get id.urn := by
    apply Option.ext
    intro a
    rw [urnBackRef_get l _ (hf l hp), urnBackRef_get _ _ (hf _ (List.Perm.refl _))]
    simp [hp.mem_iff]
  simp [ExtSet.ref, refOf, this]

theorem ref_spec {s : ExtSet} (ht : s.Tidy) {k : ExtKind} {id : ExtId} {a : UInt32}
    (h : s.anchor k id = some a) : s.urns.get (s.ref id) = some id.urn := by
  obtain ⟨u, hu⟩ := ht.2.2 k a id ((ht.1 _ _ _).2 h)
  have hf : ∀ a b u, (a, u) ∈ s.urns.entries → (b, u) ∈ s.urns.entries → a = b :=
    fun a b u h1 h2 => ht.2.1 a b u ((GoMap.get_eq_some _ _ _).2 h1) ((GoMap.get_eq_some _ _ _).2 h2)
  have : (urnBackRef s.urns.entries .empty).get id.urn = some u := by
    rw [urnBackRef_get _ _ hf]
    exact .inl ((GoMap.get_eq_some _ _ _).1 hu)
  simp [ExtSet.ref, refOf, this, hu]

/-- the declaration of an entry -/
def ExtSet.declOf (s : ExtSet) : ExtKind → ExtId × UInt32 → Decl
  | .type, e => .type (s.ref e.1) e.2 e.1.name
  | .variation, e => .variation (s.ref e.1) e.2 e.1.name
  | .func, e => .func (s.ref e.1) e.2 e.1.name

@[simp] theorem declOf_kind (s : ExtSet) (k e) : (s.declOf k e).kind = k := by cases k <;> rfl
@[simp] theorem declOf_anchor (s : ExtSet) (k e) : (s.declOf k e).anchor = e.2 := by cases k <;> rfl
@[simp] theorem declOf_name (s : ExtSet) (k e) : (s.declOf k e).name = e.1.name := by cases k <;> rfl
@[simp] theorem declOf_urnRef (s : ExtSet) (k e) : (s.declOf k e).urnRef = s.ref e.1 := by
  cases k <;> rfl

/-- the declarations of a kind in the given order -/
def ExtSet.declsOf (s : ExtSet) (k : ExtKind) : List Decl := (s.table k).byId.entries.map (s.declOf k)

theorem toProto_spec {s : ExtSet} (ht : s.Tidy) {o : Orders} (ho : o.Of s)
    (hv : s.count .type = 0 ∨ s.count .variation ≤ 1) :
    ∃ urns ts vs fs, ExtSet.toProto o = .ok (urns, ts ++ vs ++ fs) ∧
      urns.Perm s.urns.entries ∧ urns.Pairwise (fun a b => a.1 ≤ b.1) ∧
      ts.Perm (s.declsOf .type) ∧ ts.Pairwise (fun a b => a.anchor ≤ b.anchor) ∧
      vs.Perm (s.declsOf .variation) ∧ vs.Pairwise (fun a b => a.anchor ≤ b.anchor) ∧
      fs.Perm (s.declsOf .func) ∧
      ((s.count .type = 0 ∧ s.count .variation = 0) ∨ s.count .func ≤ 1 →
        fs.Pairwise (fun a b => a.anchor ≤ b.anchor)) := by
  obtain ⟨o1, o2, o3, o4⟩ := ho
  obtain ⟨urns, hu1, hu2, hu3⟩ := sortSlice_spec o.urns (lessURN_byKey o.urns)
  have hrefs : ∀ id, refOf (urnBackRef o.urns .empty) id = s.ref id := refOf_perm ht o1
  have e1 : o.types.map (fun e => Decl.type (refOf (urnBackRef o.urns .empty) e.1) e.2 e.1.name) =
      o.types.map (s.declOf .type) := by simp only [hrefs]; rfl
  have e2 : o.variations.map (fun e => Decl.variation (refOf (urnBackRef o.urns .empty) e.1) e.2 e.1.name) =
      o.variations.map (s.declOf .variation) := by simp only [hrefs]; rfl
  have e3 : o.funcs.map (fun e => Decl.func (refOf (urnBackRef o.urns .empty) e.1) e.2 e.1.name) =
      o.funcs.map (s.declOf .func) := by simp only [hrefs]; rfl
  obtain ⟨ts, ht1, ht2, ht3⟩ := sortSlice_spec (o.types.map (s.declOf .type))
    (lessDecl_byKey Decl.typeAnchor _ (by
      intro d hd
      obtain ⟨e, _, rfl⟩ := List.mem_map.1 hd
      rfl))
  have hts : ts.length = s.count .type := by
    rw [ht2.length_eq, List.length_map, o2.length_eq]; rfl
  have hvs : ∃ vs, sortSlice (lessDecl Decl.variationAnchor) ts.length
      ((ts ++ o.variations.map (s.declOf .variation)).length - ts.length)
      (ts ++ o.variations.map (s.declOf .variation)) = .ok (ts ++ vs) ∧
      vs.Perm (o.variations.map (s.declOf .variation)) ∧
      vs.Pairwise (fun a b => a.anchor ≤ b.anchor) := by
    by_cases h0 : s.count .type = 0
    · have : ts = [] := List.length_eq_zero_iff.1 (hts.trans h0)
      subst this
      obtain ⟨vs, g1, g2, g3⟩ := sortSlice_spec (o.variations.map (s.declOf .variation))
        (lessDecl_byKey Decl.variationAnchor _ (by
          intro d hd
          obtain ⟨e, _, rfl⟩ := List.mem_map.1 hd
          rfl))
      exact ⟨vs, by simpa using g1, g2, g3⟩
    · have h1 : s.count .variation ≤ 1 := by omega
      have hl : (o.variations.map (s.declOf .variation)).length ≤ 1 := by
        rw [List.length_map, o3.length_eq]; exact h1
      refine ⟨_, sortSlice_small _ _ _ _ (by simpa using hl), List.Perm.refl _, ?_⟩
      match h : o.variations.map (s.declOf .variation), hl with
      | [], _ => simp
      | [x], _ => simp
  obtain ⟨vs, hv1, hv2, hv3⟩ := hvs
  have hvl : vs.length = s.count .variation := by
    rw [hv2.length_eq, List.length_map, o3.length_eq]; rfl
  have hfs : ∃ fs, sortSlice (lessDecl Decl.funcAnchor) (ts ++ vs).length
      ((ts ++ vs ++ o.funcs.map (s.declOf .func)).length - (ts ++ vs).length)
      (ts ++ vs ++ o.funcs.map (s.declOf .func)) = .ok (ts ++ vs ++ fs) ∧
      fs.Perm (o.funcs.map (s.declOf .func)) ∧
      ((s.count .type = 0 ∧ s.count .variation = 0) ∨ s.count .func ≤ 1 →
        fs.Pairwise (fun a b => a.anchor ≤ b.anchor)) := by
    by_cases h0 : s.count .type = 0 ∧ s.count .variation = 0
    · have e1 : ts = [] := List.length_eq_zero_iff.1 (hts.trans h0.1)
      have e2 : vs = [] := List.length_eq_zero_iff.1 (hvl.trans h0.2)
      subst e1; subst e2
      obtain ⟨fs, g1, g2, g3⟩ := sortSlice_spec (o.funcs.map (s.declOf .func))
        (lessDecl_byKey Decl.funcAnchor _ (by
          intro d hd
          obtain ⟨e, _, rfl⟩ := List.mem_map.1 hd
          rfl))
      exact ⟨fs, by simpa using g1, g2, fun _ => g3⟩
    · obtain ⟨fs, g1, g2⟩ := sortSlice_perm (less := lessDecl Decl.funcAnchor) (ts ++ vs)
        (o.funcs.map (s.declOf .func)) (lessFunc_answers _ _ (by simp; omega))
      refine ⟨fs, ?_, g2, fun h => ?_⟩
      · rw [← g1]
        congr 1
        simp
        omega
      · have hl : fs.length ≤ 1 := by
          rw [g2.length_eq, List.length_map, o4.length_eq]
          rcases h with h | h
          · exact absurd h h0
          · exact h
        match h : fs, hl with
        | [], _ => simp
        | [x], _ => simp
  obtain ⟨fs, hf1, hf2, hf3⟩ := hfs
  refine ⟨urns, ts, vs, fs, ?_, hu2.trans o1, hu3, ht2.trans (o2.map _), ht3, hv2.trans (o3.map _),
    hv3, hf2.trans (o4.map _), hf3⟩
  simp only [ExtSet.toProto, e1, e2, e3, hu1, ht1, hv1, hf1, Res.ok_bind]

theorem mem_declsOf {s : ExtSet} (ht : s.Tidy) (k : ExtKind) (d : Decl) :
    d ∈ s.declsOf k ↔ d.kind = k ∧ ∃ u, s.urns.get d.urnRef = some u ∧
      s.decode k d.anchor = some ⟨u, d.name⟩ := by
  constructor
  · intro h
    obtain ⟨⟨id, a⟩, h1, rfl⟩ := List.mem_map.1 h
    have ha : s.anchor k id = some a := (GoMap.get_eq_some _ _ _).2 h1
    refine ⟨by simp, id.urn, by simpa using ref_spec ht ha, ?_⟩
    simpa using (ht.1 k a id).2 ha
  · rintro ⟨hk, u, h1, h2⟩
    have ha := (ht.1 _ _ _).1 h2
    refine List.mem_map.2 ⟨(⟨u, d.name⟩, d.anchor), (GoMap.get_eq_some _ _ _).1 ha, ?_⟩
    have hr : s.ref ⟨u, d.name⟩ = d.urnRef := ht.2.1 _ _ _ (ref_spec ht ha) h1
    cases d <;> simp only [Decl.kind] at hk <;> subst hk <;>
      simp_all [ExtSet.declOf, Decl.urnRef, Decl.anchor, Decl.name]

theorem declsOf_inj {s : ExtSet} (ht : s.Tidy) (k : ExtKind) :
    ∀ a ∈ s.declsOf k, ∀ b ∈ s.declsOf k, a.anchor = b.anchor → a = b := by
  intro a ha b hb h
  obtain ⟨⟨i, x⟩, h1, rfl⟩ := List.mem_map.1 ha
  obtain ⟨⟨j, y⟩, h2, rfl⟩ := List.mem_map.1 hb
  simp only [declOf_anchor] at h
  subst h
  have h1' := (ht.1 k x i).2 ((GoMap.get_eq_some _ _ _).2 h1)
  have h2' := (ht.1 k x j).2 ((GoMap.get_eq_some _ _ _).2 h2)
  rw [h1'] at h2'
  injection h2' with h2'
  rw [h2']

/-- strictly sorted from sorted with different keys -/
theorem pairwise_strict {α : Type} (key : α → UInt32) : ∀ {l : List α},
    l.Pairwise (fun a b => key a ≤ key b) → l.Nodup →
    (∀ a ∈ l, ∀ b ∈ l, key a = key b → a = b) → l.Pairwise (fun a b => key a < key b)
  | [], _, _, _ => by simp
  | x :: l, h, hn, hi => by
    rw [List.pairwise_cons] at h ⊢
    rw [List.nodup_cons] at hn
    refine ⟨fun y hy => ?_, pairwise_strict key h.2 hn.2
      (fun a ha b hb => hi a (by simp [ha]) b (by simp [hb]))⟩
    have h1 := h.1 y hy
    rcases UInt32.lt_or_eq_of_le h1 with h2 | h2
    · exact h2
    · have := hi x (by simp) y (by simp [hy]) h2
      subst this
      exact absurd hy hn.1

theorem declsOf_nodup {s : ExtSet} (ht : s.Tidy) (k : ExtKind) : (s.declsOf k).Nodup := by
  apply List.Nodup.map_on _ (s.table k).byId.nodup.of_map
  rintro ⟨i, x⟩ h1 ⟨j, y⟩ h2 e
  have e2 : x = y := by
    have := congrArg Decl.anchor e
    simpa using this
  subst e2
  have h1' := (ht.1 k x i).2 ((GoMap.get_eq_some _ _ _).2 h1)
  have h2' := (ht.1 k x j).2 ((GoMap.get_eq_some _ _ _).2 h2)
  rw [h1'] at h2'
  injection h2' with h2'
  rw [h2']

theorem toProto_panics {o : Orders} (h1 : o.types ≠ []) (h2 : 2 ≤ o.variations.length) :
    ExtSet.toProto o = .panic := by
  obtain ⟨urns, hu1, _, _⟩ := sortSlice_spec o.urns (lessURN_byKey o.urns)
  obtain ⟨ts, ht1, ht2, _⟩ := sortSlice_spec
    (o.types.map (fun e => Decl.type (refOf (urnBackRef o.urns .empty) e.1) e.2 e.1.name))
    (lessDecl_byKey Decl.typeAnchor _ (by
      intro d hd
      obtain ⟨e, _, rfl⟩ := List.mem_map.1 hd
      rfl))
  simp only [ExtSet.toProto, hu1, ht1, Res.ok_bind]
  cases ts with
  | nil =>
    have := ht2.length_eq
    simp at this
    exact absurd this.symm (by simpa using h1)
  | cons t ts =>
    obtain ⟨e, he, het⟩ := List.mem_map.1 (ht2.mem_iff.1 (List.mem_cons_self))
    have hpanic : ∀ (vs : List Decl), 2 ≤ vs.length →
        sortSlice (lessDecl Decl.variationAnchor) (t :: ts).length
          ((t :: ts ++ vs).length - (t :: ts).length) (t :: ts ++ vs) = .panic := by
      intro vs hvs
      have hn : (t :: ts ++ vs).length - (t :: ts).length - 1 = (vs.length - 2) + 1 := by
        simp; omega
      have h0 : Res.index (t :: ts ++ vs) ((0 : Nat) : Int) = .ok t := by
        rw [Res.index_nat _ _ (by simp)]; rfl
      have hlt : 1 < (t :: ts ++ vs).length := by simp; omega
      have h1 := Res.index_nat (t :: ts ++ vs) 1 hlt
      have ht : t.variationAnchor = .panic := by rw [← het]; rfl
      unfold sortSlice
      rw [hn]
      simp only [insertFrom, bubble, lessDecl]
      rw [show ((0 + 1 : Nat) : Int) = ((1 : Nat) : Int) from rfl, h1, h0]
      simp only [Res.ok_bind, ht, Res.panic_bind]
      cases ((t :: ts ++ vs)[1]'hlt) <;> simp [Decl.variationAnchor]
    rw [hpanic _ (by simpa using h2)]
    rfl

/-! ### reading in general -/

theorem readURNs_find : ∀ (l : List (UInt32 × String)) (m : GoMap UInt32 String) (a : UInt32),
    (readURNs l m).get a = ((l.reverse.find? (fun p => p.1 = a)).map Prod.snd).or (m.get a)
  | [], m, a => rfl
  | (b, v) :: l, m, a => by
    rw [readURNs, readURNs_find l, GoMap.get_set, List.reverse_cons, List.find?_append]
    cases l.reverse.find? (fun p => p.1 = a) with
    | some p => simp
    | none =>
      by_cases e : a = b
      · subst e; simp
      · have : ¬ b = a := fun h => e h.symm
        simp [e, this]

theorem readDecls_ok (loaded : String → Bool) : ∀ (ds : List (Option Decl)) (s s' : ExtSet),
    readDecls loaded ds s = .ok s' →
    (∀ d, some d ∈ ds → ∃ u, s.urns.get d.urnRef = some u ∧ loaded u = true) ∧
    ∀ k a, s'.decode k a =
      (((ds.filterMap id).reverse.find? (fun d => d.kind = k ∧ d.anchor = a)).bind
        (fun d => (s.urns.get d.urnRef).map (fun u => ExtId.mk u d.name))).or (s.decode k a)
  | [], s, s', h => by
    injection h with h
    subst h
    simp
  | none :: ds, s, s', h => by
    obtain ⟨h1, h2⟩ := readDecls_ok loaded ds s s' h
    exact ⟨fun d hd => h1 d (by simpa using hd), by simpa using h2⟩
  | some d :: ds, s, s', h => by
    rw [readDecls_cons] at h
    obtain ⟨u, hu, h⟩ := Res.bind_eq_ok.1 h
    obtain ⟨h1, h2⟩ := readDecls_ok loaded ds _ s' h
    have hg : s.urns.get d.urnRef = some u ∧ loaded u = true := by
      unfold resolveRef at hu
      split at hu
      · cases hu
      · rename_i w hw
        split at hu
        · injection hu with hu
          subst hu
          exact ⟨hw, by assumption⟩
        · cases hu
    have hurns : ∀ t, (s.withTable d.kind t).urns = s.urns := by intro t; cases d <;> rfl
    rw [hurns] at h1 h2
    refine ⟨fun e he => ?_, fun k a => ?_⟩
    · rcases List.mem_cons.1 he with he | he
      · injection he with he
        subst he
        exact ⟨u, hg⟩
      · exact h1 e he
    · have hfm : (some d :: ds).filterMap id = d :: ds.filterMap id := rfl
      rw [h2, hfm, List.reverse_cons, List.find?_append]
      have hdec : ExtSet.decode (s.withTable d.kind ((s.table d.kind).encode d.anchor ⟨u, d.name⟩)) k a
          = if d.kind = k ∧ d.anchor = a then some ⟨u, d.name⟩ else s.decode k a := by
        cases d <;> cases k <;>
          simp [Decl.kind, Decl.anchor, ExtSet.decode, ExtSet.withTable, ExtSet.table, IdTable.encode,
            GoMap.get_set, Decl.name, eq_comm]
      rw [hdec]
      cases hf : (ds.filterMap id).reverse.find? (fun d => d.kind = k ∧ d.anchor = a) with
      | some e =>
        have he : some e ∈ ds := by
          have := List.mem_of_find?_eq_some hf
          simpa using this
        obtain ⟨w, hw, _⟩ := h1 e he
        simp [hw]
      | none =>
        by_cases hc : d.kind = k ∧ d.anchor = a
        · simp [hc, hg]
        · simp [hc]

theorem readDecls_total (loaded : String → Bool) : ∀ (ds : List (Option Decl)) (s : ExtSet),
    readDecls loaded ds s ≠ .panic ∧
    ((∀ d, some d ∈ ds → ∃ u, s.urns.get d.urnRef = some u ∧ loaded u = true) →
      ∃ s', readDecls loaded ds s = .ok s')
  | [], s => ⟨by simp [readDecls], fun _ => ⟨s, rfl⟩⟩
  | none :: ds, s => by
    obtain ⟨h1, h2⟩ := readDecls_total loaded ds s
    exact ⟨h1, fun h => h2 (fun d hd => h d (by simp [hd]))⟩
  | some d :: ds, s => by
    have hurns : ∀ t, (s.withTable d.kind t).urns = s.urns := by intro t; cases d <;> rfl
    rw [readDecls_cons]
    constructor
    · cases hr : resolveRef loaded s.urns d.urnRef with
      | ok u => exact (readDecls_total loaded ds _).1
      | err => simp
      | panic => unfold resolveRef at hr; split at hr <;> [cases hr; (split at hr <;> cases hr)]
    · intro h
      obtain ⟨u, h1, h2⟩ := h d (by simp)
      obtain ⟨s', hs⟩ := (readDecls_total loaded ds
        (s.withTable d.kind ((s.table d.kind).encode d.anchor ⟨u, d.name⟩))).2
        (fun e he => by rw [hurns]; exact h e (by simp [he]))
      exact ⟨s', by simp [resolveRef, h1, h2, hs]⟩

end Verif
