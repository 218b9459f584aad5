import Verif.Spec.RelMem
import Verif.Lemmas.Rel
/-!
# Lemmas about schemas in memory
-/

namespace Verif

/-- Everything that exists in `m` is the same in `m'`. -/
structure MemExtends (m m' : RMem) : Prop where
  arrs : ∀ a, a < m.arrs.length → m'.arrs[a]? = m.arrs[a]?
  objs : ∀ o, o < m.objs.length → m'.objs[o]? = m.objs[o]?
  len : m.arrs.length ≤ m'.arrs.length
  olen : m.objs.length ≤ m'.objs.length

theorem MemExtends.refl (m : RMem) : MemExtends m m :=
  ⟨fun _ _ => rfl, fun _ _ => rfl, Nat.le_refl _, Nat.le_refl _⟩

theorem MemExtends.trans {a b c : RMem} (h1 : MemExtends a b) (h2 : MemExtends b c) : MemExtends a c :=
  ⟨fun x hx => (h2.arrs x (Nat.lt_of_lt_of_le hx h1.len)).trans (h1.arrs x hx),
   fun x hx => (h2.objs x (Nat.lt_of_lt_of_le hx h1.olen)).trans (h1.objs x hx),
   Nat.le_trans h1.len h2.len, Nat.le_trans h1.olen h2.olen⟩

theorem MemExtends.arr {m m' : RMem} (h : MemExtends m m') {i : Nat} {a : List Nat}
    (ha : m.arrs[i]? = some a) : m'.arrs[i]? = some a := by
  rw [h.arrs i (List.getElem?_eq_some_iff.1 ha).1, ha]

theorem MemExtends.obj {m m' : RMem} (h : MemExtends m m') {i : Nat} {t : Ty}
    (ha : m.objs[i]? = some t) : m'.objs[i]? = some t := by
  rw [h.objs i (List.getElem?_eq_some_iff.1 ha).1, ha]

theorem MemExtends.holds {m m' : RMem} (h : MemExtends m m') {as : List Nat} {ts : List Ty}
    (ha : m.Holds as ts) : m'.Holds as ts :=
  List.Forall₂.imp (fun _ _ => h.obj) ha

theorem MemExtends.reads {m m' : RMem} (h : MemExtends m m') {s : RSlice} {ts : List Ty}
    (hs : m.Reads s ts) : m'.Reads s ts := by
  obtain ⟨a, ha, hl, hh⟩ := hs
  exact ⟨a, h.arr ha, hl, h.holds hh⟩

theorem MemExtends.full {m m' : RMem} (h : MemExtends m m') {s : RSlice} (hs : m.Full s) : m'.Full s := by
  obtain ⟨a, ha, hl⟩ := hs
  exact ⟨a, h.arr ha, hl⟩

theorem MemExtends.safe {m m' : RMem} (h : MemExtends m m') : ∀ r : MRel, r.Safe m → r.Safe m'
  | .scan _ _, ⟨hf, ts, hr⟩ => ⟨h.full hf, ts, h.reads hr⟩
  | .empty _, _ => trivial
  | .project _ i _, ⟨hi, ts, ht⟩ => ⟨h.safe i hi, ts, h.holds ht⟩
  | .join _ l r _, ⟨hl, hr, ho⟩ => ⟨h.safe l hl, h.safe r hr, ho⟩
  | .concat _ l r, ⟨hl, hr⟩ => ⟨h.safe l hl, h.safe r hr⟩
  | .pass _ i, hi => h.safe i hi
  | .aggregate _ _, ⟨ts, ht⟩ => ⟨ts, h.holds ht⟩

theorem holds_append {m : RMem} {as bs : List Nat} {ts us : List Ty} (h1 : m.Holds as ts)
    (h2 : m.Holds bs us) : m.Holds (as ++ bs) (ts ++ us) := List.rel_append h1 h2

theorem holds_functional {m : RMem} {as : List Nat} {ts us : List Ty} (h1 : m.Holds as ts)
    (h2 : m.Holds as us) : ts = us := by
  unfold RMem.Holds at h1 h2
  induction h1 generalizing us with
  | nil => cases h2; rfl
  | cons h _ ih =>
    obtain ⟨b, c, hb, hc, rfl⟩ := List.forall₂_cons_left_iff.1 h2
    rw [h] at hb
    cases hb
    rw [ih hc]

theorem reads_functional {m : RMem} {s : RSlice} {ts us : List Ty} (h1 : m.Reads s ts)
    (h2 : m.Reads s us) : ts = us := by
  obtain ⟨a, ha, -, h1⟩ := h1
  obtain ⟨b, hb, -, h2⟩ := h2
  rw [ha] at hb
  cases hb
  exact holds_functional h1 h2

theorem elems_iff {m : RMem} {s : RSlice} {xs : List Nat} :
    m.elems s = .ok xs ↔ ∃ a, m.arrs[s.arr]? = some a ∧ s.len ≤ a.length ∧ xs = a.take s.len := by
  unfold RMem.elems
  cases h : m.arrs[s.arr]? with
  | none => simp
  | some a =>
    by_cases hl : s.len ≤ a.length
    · simp [hl, eq_comm]
    · simp [hl]

theorem reads_iff_elems {m : RMem} {s : RSlice} {ts : List Ty} :
    m.Reads s ts ↔ ∃ xs, m.elems s = .ok xs ∧ m.Holds xs ts := by
  constructor
  · rintro ⟨a, ha, hl, h⟩
    exact ⟨_, elems_iff.2 ⟨a, ha, hl, rfl⟩, h⟩
  · rintro ⟨xs, hx, h⟩
    obtain ⟨a, ha, hl, rfl⟩ := elems_iff.1 hx
    exact ⟨a, ha, hl, h⟩

theorem alloc_spec (m : RMem) (xs : List Nat) (k : Nat) :
    MemExtends m (m.alloc xs k).2 ∧ (m.alloc xs k).1.arr = m.arrs.length ∧
    (m.alloc xs k).1.len = xs.length ∧ (m.alloc xs k).2.objs = m.objs ∧
    (m.alloc xs k).2.elems (m.alloc xs k).1 = .ok xs := by
  refine ⟨⟨fun a ha => ?_, fun _ _ => rfl, ?_, Nat.le_refl _⟩, rfl, rfl, rfl, ?_⟩
  · simp [RMem.alloc, List.getElem?_append_left ha]
  · simp [RMem.alloc]
  · rw [elems_iff]
    exact ⟨xs ++ List.replicate k 0, by simp [RMem.alloc], by simp [RMem.alloc], by simp [RMem.alloc]⟩

/-- What is known of a slice returned in `m'` by a computation started in `m0`: it reads `ts`, and
it is either new or without spare capacity. -/
structure Returned (m0 m' : RMem) (s : RSlice) (ts : List Ty) : Prop where
  ext : MemExtends m0 m'
  noID : m'.NoIntervalDay
  reads : m'.Reads s ts
  fresh : m0.arrs.length ≤ s.arr ∨ m'.Full s

theorem alloc_returned {m0 m : RMem} (h : MemExtends m0 m) (hn : m.NoIntervalDay) {xs : List Nat}
    {ts : List Ty} (hx : m.Holds xs ts) (k : Nat) :
    Returned m0 (m.alloc xs k).2 (m.alloc xs k).1 ts := by
  obtain ⟨h1, h2, h3, h4, h5⟩ := alloc_spec m xs k
  refine ⟨h.trans h1, ?_, reads_iff_elems.2 ⟨xs, h5, h1.holds hx⟩, Or.inl ?_⟩
  · unfold RMem.NoIntervalDay
    rw [h4]
    exact hn
  · rw [h2]; exact h.len

/-- The relation between a list and its image under an output mapping. -/
def Mapped (mp : Option (List Int32)) (ts out : List α) : Prop :=
  match mp with
  | none => out = ts
  | some is => Picks ts is out

theorem picks_map {R : α → β → Prop} {xs : List α} {ts : List β} (h : List.Forall₂ R xs ts)
    {is : List Int32} {ys : List α} (hp : Picks xs is ys) :
    ∃ us, Picks ts is us ∧ List.Forall₂ R ys us := by
  unfold Picks at hp ⊢
  induction hp with
  | nil => exact ⟨[], List.Forall₂.nil, List.Forall₂.nil⟩
  | cons hi _ ih =>
    obtain ⟨us, h1, h2⟩ := ih
    obtain ⟨h0, hx⟩ := hi
    obtain ⟨hk, hx⟩ := List.getElem?_eq_some_iff.1 hx
    have hk' := hk
    rw [List.Forall₂.length_eq h] at hk'
    have hr := List.Forall₂.get h hk hk'
    simp only [List.get_eq_getElem, hx] at hr
    exact ⟨_, List.Forall₂.cons ⟨h0, List.getElem?_eq_getElem hk'⟩ h1, List.Forall₂.cons hr h2⟩

theorem remap_returned {m0 m : RMem} {s : RSlice} {ts : List Ty} (h : Returned m0 m s ts)
    {mp : Option (List Int32)} {s' : RSlice} {m' : RMem} (hr : m.remap mp s = .ok (s', m')) :
    ∃ out, Mapped mp ts out ∧ Returned m0 m' s' out := by
  cases mp with
  | none =>
    cases hr
    exact ⟨ts, rfl, h⟩
  | some is =>
    simp only [RMem.remap] at hr
    obtain ⟨xs, hx, hr⟩ := Res.bind_eq_ok.1 hr
    obtain ⟨ys, hy, hr⟩ := Res.bind_eq_ok.1 hr
    obtain ⟨xs', hx', hh⟩ := reads_iff_elems.1 h.reads
    rw [hx] at hx'
    cases hx'
    obtain ⟨us, hu, hh'⟩ := picks_map hh (picks_iff.1 hy)
    refine ⟨us, hu, ?_⟩
    have := alloc_returned h.ext h.noID hh' 0
    simp only [Res.ok.injEq] at hr
    rw [hr] at this
    exact this

theorem append_returned {g : Growth} {m0 m m' : RMem} {s s' : RSlice} {ts us : List Ty}
    {xs : List Nat} (h : Returned m0 m s ts) (hx : m.Holds xs us)
    (ha : m.append g s xs = .ok (s', m')) :
    Returned m0 m' s' (ts ++ us) ∧ (xs ≠ [] → m0.arrs.length ≤ s'.arr) := by
  obtain ⟨hext, hn, ⟨a, harr, hl, hh⟩, hf⟩ := h
  have hlt : s.arr < m.arrs.length := (List.getElem?_eq_some_iff.1 harr).1
  simp only [RMem.append, harr] at ha
  split at ha
  · rename_i hle
    cases ha
    have hw : MemExtends m0 { m with arrs := m.arrs.set s.arr (a.take s.len ++ xs ++ a.drop (s.len + xs.length)) } := by
      refine ⟨fun b hb => ?_, hext.objs, by simpa using hext.len, hext.olen⟩
      simp only [List.getElem?_set]
      by_cases hbe : s.arr = b
      · subst hbe
        rcases hf with hf | ⟨a', ha', hl'⟩
        · omega
        · rw [harr] at ha'
          cases ha'
          have : xs = [] := by
            cases xs with
            | nil => rfl
            | cons _ _ => simp at hle; omega
          subst this
          rw [← hext.arrs _ hb, harr]
          simp [hlt]
      · simp [hbe, hext.arrs b hb]
    have hread : RMem.Reads { m with arrs := m.arrs.set s.arr (a.take s.len ++ xs ++ a.drop (s.len + xs.length)) }
        ⟨s.arr, s.len + xs.length⟩ (ts ++ us) := by
      refine ⟨a.take s.len ++ xs ++ a.drop (s.len + xs.length), by simp [hlt], ?_, ?_⟩
      · simp; omega
      · have : (a.take s.len ++ xs ++ a.drop (s.len + xs.length)).take (s.len + xs.length) = a.take s.len ++ xs := by
          rw [List.take_left']
          simp [hl]
        show RMem.Holds _ ((a.take s.len ++ xs ++ a.drop (s.len + xs.length)).take (s.len + xs.length)) _
        rw [this]
        exact holds_append (m := { m with arrs := _ }) hh hx
    refine ⟨⟨hw, hn, hread, ?_⟩, ?_⟩
    · rcases hf with hf | ⟨a', ha', hl'⟩
      · exact Or.inl hf
      · rw [harr] at ha'
        cases ha'
        refine Or.inr ⟨_, by simp [hlt]; rfl, ?_⟩
        simp; omega
    · intro hne
      rcases hf with hf | ⟨a', ha', hl'⟩
      · exact hf
      · rw [harr] at ha'
        cases ha'
        exact absurd (List.length_eq_zero_iff.1 (by omega)) hne
  · simp only [Res.ok.injEq] at ha
    have := alloc_returned hext hn (holds_append hh hx) (g a.length (s.len + xs.length))
    have h2 := (alloc_spec m (a.take s.len ++ xs) (g a.length (s.len + xs.length))).2.1
    rw [ha] at this h2
    exact ⟨this, fun _ => by rw [h2]; exact hext.len⟩

theorem withNullability_noID {objs objs' : TypeMem} {a b : Nat} {t : Ty}
    (hn : ∀ n v p, Ty.prec .intervalDay n v p ∉ objs) (ht : objs[a]? = some t)
    (h : withNullabilityAt objs a NullabilityNullable = .ok (objs', b)) :
    objs' = objs ++ [asNullable t] ∧ b = objs.length := by
  have hm : t ∈ objs := List.mem_of_getElem? ht
  unfold withNullabilityAt at h
  rw [ht] at h
  split at h
  · simp_all
  · rename_i m v p e
    cases e
    exact absurd hm (hn _ _ _)
  · rename_i e
    cases e
    cases h
    exact ⟨rfl, rfl⟩

theorem asNullable_noID {t : Ty} (h : ∀ n v p, t ≠ Ty.prec .intervalDay n v p) (n v p) :
    asNullable t ≠ Ty.prec .intervalDay n v p := by
  intro he
  cases t with
  | prec k n' v' p' =>
    simp only [asNullable, Ty.withNullability] at he
    cases he
    exact h _ _ _ rfl
  | _ => simp [asNullable, Ty.withNullability] at he

theorem push_obj {m : RMem} (hn : m.NoIntervalDay) {a : Nat} {t : Ty} (ht : m.objs[a]? = some t) :
    MemExtends m { m with objs := m.objs ++ [asNullable t] } ∧
    RMem.NoIntervalDay { m with objs := m.objs ++ [asNullable t] } := by
  refine ⟨⟨fun _ _ => rfl, fun o ho => ?_, Nat.le_refl _, by simp⟩, ?_⟩
  · simp [List.getElem?_append_left ho]
  · intro n v p hm
    rcases List.mem_append.1 hm with hm | hm
    · exact hn n v p hm
    · have hm := List.mem_singleton.1 hm
      refine asNullable_noID ?_ n v p hm.symm
      intro n v p he
      subst he
      exact hn _ _ _ (List.mem_of_getElem? ht)

theorem nullables_spec {m m' : RMem} {as bs : List Nat} {ts : List Ty} (hn : m.NoIntervalDay)
    (ha : m.Holds as ts) (h : m.nullables as = .ok (bs, m')) :
    MemExtends m m' ∧ m'.NoIntervalDay ∧ m'.arrs = m.arrs ∧ m'.Holds bs (ts.map asNullable) := by
  induction as generalizing m bs ts with
  | nil =>
    cases ha
    cases h
    exact ⟨MemExtends.refl _, hn, rfl, List.Forall₂.nil⟩
  | cons a as ih =>
    obtain ⟨t, ts, ht, hts, rfl⟩ := List.forall₂_cons_left_iff.1 ha
    simp only [RMem.nullables] at h
    obtain ⟨⟨objs, b⟩, hw, h⟩ := Res.bind_eq_ok.1 h
    obtain ⟨⟨bs', m''⟩, hr, h⟩ := Res.bind_eq_ok.1 h
    cases h
    obtain ⟨rfl, rfl⟩ := withNullability_noID hn ht hw
    obtain ⟨he, hn'⟩ := push_obj hn ht
    obtain ⟨h1, h2, h3, h4⟩ := ih hn' (he.holds hts) hr
    refine ⟨he.trans h1, h2, h3, ?_⟩
    refine List.Forall₂.cons ?_ h4
    exact h1.obj (by simp)

theorem inPlace_spec {s : RSlice} {m m' : RMem} {as done rest : List Nat} {ts : List Ty} {i : Nat}
    (hn : m.NoIntervalDay) (hi : i = done.length)
    (harr : m.arrs[s.arr]? = some (done ++ as ++ rest)) (ha : m.Holds as ts)
    (h : m.nullableInPlace s i as = .ok m') :
    (∀ b, b ≠ s.arr → m'.arrs[b]? = m.arrs[b]?) ∧ m'.arrs.length = m.arrs.length ∧
    (∀ o, o < m.objs.length → m'.objs[o]? = m.objs[o]?) ∧ m.objs.length ≤ m'.objs.length ∧
    m'.NoIntervalDay ∧
    ∃ bs, m'.arrs[s.arr]? = some (done ++ bs ++ rest) ∧ m'.Holds bs (ts.map asNullable) := by
  induction as generalizing m ts i done with
  | nil =>
    cases ha
    cases h
    exact ⟨fun _ _ => rfl, rfl, fun _ _ => rfl, Nat.le_refl _, hn, [], harr, List.Forall₂.nil⟩
  | cons a as ih =>
    obtain ⟨t, ts, ht, hts, rfl⟩ := List.forall₂_cons_left_iff.1 ha
    simp only [RMem.nullableInPlace] at h
    obtain ⟨⟨objs, b⟩, hw, h⟩ := Res.bind_eq_ok.1 h
    obtain ⟨rfl, rfl⟩ := withNullability_noID hn ht hw
    obtain ⟨he, hn'⟩ := push_obj hn ht
    have hlt : s.arr < m.arrs.length := (List.getElem?_eq_some_iff.1 harr).1
    have harr' : (RMem.store { m with objs := m.objs ++ [asNullable t] } s i m.objs.length).arrs[s.arr]?
        = some ((done ++ [m.objs.length]) ++ as ++ rest) := by
      simp only [RMem.store, List.getElem?_modify, harr, if_true]
      subst hi
      simp
    obtain ⟨h1, h2, h3, h4, h5, bs, h6, h7⟩ := ih
      (m := RMem.store { m with objs := m.objs ++ [asNullable t] } s i m.objs.length) hn'
      (done := done ++ [m.objs.length]) (by simp [hi]) harr' (he.holds hts) h
    refine ⟨fun b hb => ?_, ?_, fun o ho => ?_, ?_, h5, m.objs.length :: bs, ?_, ?_⟩
    · rw [h1 b hb]
      simp only [RMem.store, List.getElem?_modify, if_neg (Ne.symm hb)]
      cases m.arrs[b]? <;> rfl
    · rw [h2]; simp [RMem.store]
    · rw [h3 o (by simp [RMem.store]; omega)]
      simp [RMem.store, List.getElem?_append_left ho]
    · refine Nat.le_trans ?_ h4
      simp [RMem.store]
    · rw [h6]; simp
    · rw [List.map_cons]
      refine List.Forall₂.cons ?_ h7
      rw [h3 _ (by simp [RMem.store])]
      simp [RMem.store]

theorem Returned.mono {m0 m m' : RMem} {s : RSlice} {ts : List Ty} (h : Returned m0 m s ts)
    (he : MemExtends m m') (hn : m'.NoIntervalDay) : Returned m0 m' s ts :=
  ⟨h.ext.trans he, hn, he.reads h.reads, h.fresh.imp id he.full⟩

theorem Returned.rebase {m0 m1 m : RMem} {s : RSlice} {ts : List Ty} (h0 : MemExtends m0 m1)
    (h : Returned m1 m s ts) : Returned m0 m s ts :=
  ⟨h0.trans h.ext, h.noID, h.reads, h.fresh.imp (Nat.le_trans h0.len) id⟩

theorem mapped_length {mp : Option (List Int32)} {ts out : List α} (h : Mapped mp ts out) :
    out.length = mappedWidth mp ts.length := by
  cases mp with
  | none => cases h; rfl
  | some is => exact h.length_eq

theorem mapped_functional {mp : Option (List Int32)} {ts a b : List α} (h1 : Mapped mp ts a)
    (h2 : Mapped mp ts b) : a = b := by
  cases mp with
  | none => cases h1; cases h2; rfl
  | some is => exact Picks.functional h1 h2

/-- The columns a join is made of, given functions for those of its inputs. -/
def joinCols (ty : JoinType) (L R : List Ty → Prop) (d : List Ty) : Prop :=
  match ty with
  | .inner => ∃ ls rs, L ls ∧ R rs ∧ d = ls ++ rs
  | .leftSemi | .leftAnti => L d
  | .outer => ∃ ls rs, L ls ∧ R rs ∧ d = (ls ++ rs).map asNullable
  | .left | .leftSingle => ∃ ls rs, L ls ∧ R rs ∧ d = ls ++ rs.map asNullable
  | .right | .rightSingle => ∃ ls rs, L ls ∧ R rs ∧ d = ls.map asNullable ++ rs
  | .rightSemi | .rightAnti => R d
  | .unspecified | .other _ => d = []

/-- The columns of a relation as a function of what memory holds. -/
def MRel.Columns (m : RMem) : MRel → List Ty → Prop
  | .scan mp s, out => ∃ ts, m.Reads s ts ∧ Mapped mp ts out
  | .empty mp, out => Mapped mp [] out
  | .project mp i as, out =>
      ∃ ts us, i.Columns m ts ∧ m.Holds as us ∧ Mapped mp (ts ++ us) out
  | .join mp l r ty, out =>
      ∃ d, joinCols ty (l.Columns m) (r.Columns m) d ∧ Mapped mp d out
  | .concat mp l r, out =>
      ∃ ls rs, l.Columns m ls ∧ r.Columns m rs ∧ Mapped mp (ls ++ rs) out
  | .pass mp i, out => ∃ ts, i.Columns m ts ∧ Mapped mp ts out
  | .aggregate mp as, out => ∃ ts, m.Holds as ts ∧ Mapped mp ts out

theorem joinCols_functional {ty : JoinType} {L R : List Ty → Prop}
    (hL : ∀ a b, L a → L b → a = b) (hR : ∀ a b, R a → R b → a = b) {d d' : List Ty}
    (h1 : joinCols ty L R d) (h2 : joinCols ty L R d') : d = d' := by
  cases ty <;> simp only [joinCols] at h1 h2
  case leftSemi | leftAnti => exact hL _ _ h1 h2
  case rightSemi | rightAnti => exact hR _ _ h1 h2
  case unspecified | other => rw [h1, h2]
  all_goals
    obtain ⟨l1, r1, hl1, hr1, rfl⟩ := h1
    obtain ⟨l2, r2, hl2, hr2, rfl⟩ := h2
    rw [hL _ _ hl1 hl2, hR _ _ hr1 hr2]

theorem joinCols_imp {ty : JoinType} {L R L' R' : List Ty → Prop}
    (hL : ∀ a, L a → L' a) (hR : ∀ a, R a → R' a) {d : List Ty}
    (h : joinCols ty L R d) : joinCols ty L' R' d := by
  cases ty <;> simp only [joinCols] at h ⊢
  case leftSemi | leftAnti => exact hL _ h
  case rightSemi | rightAnti => exact hR _ h
  case unspecified | other => exact h
  all_goals
    obtain ⟨l1, r1, hl1, hr1, e⟩ := h
    exact ⟨l1, r1, hL _ hl1, hR _ hr1, e⟩

theorem columns_functional (m : RMem) : ∀ (r : MRel) (a b : List Ty), r.Columns m a →
    r.Columns m b → a = b
  | .scan _ _, _, _, ⟨_, h1, h2⟩, ⟨_, h3, h4⟩ => by
      cases reads_functional h1 h3; exact mapped_functional h2 h4
  | .empty _, _, _, h1, h2 => mapped_functional h1 h2
  | .project _ i _, _, _, ⟨_, _, h1, h2, h3⟩, ⟨_, _, h4, h5, h6⟩ => by
      cases columns_functional m i _ _ h1 h4
      cases holds_functional h2 h5
      exact mapped_functional h3 h6
  | .join _ l r _, _, _, ⟨_, h1, h2⟩, ⟨_, h3, h4⟩ => by
      cases joinCols_functional (columns_functional m l) (columns_functional m r) h1 h3
      exact mapped_functional h2 h4
  | .concat _ l r, _, _, ⟨_, _, h1, h2, h3⟩, ⟨_, _, h4, h5, h6⟩ => by
      cases columns_functional m l _ _ h1 h4
      cases columns_functional m r _ _ h2 h5
      exact mapped_functional h3 h6
  | .pass _ i, _, _, ⟨_, h1, h2⟩, ⟨_, h3, h4⟩ => by
      cases columns_functional m i _ _ h1 h3; exact mapped_functional h2 h4
  | .aggregate _ _, _, _, ⟨_, h1, h2⟩, ⟨_, h3, h4⟩ => by
      cases holds_functional h1 h3; exact mapped_functional h2 h4

theorem MemExtends.columns {m m' : RMem} (h : MemExtends m m') : ∀ (r : MRel) (a : List Ty),
    r.Columns m a → r.Columns m' a
  | .scan _ _, _, ⟨ts, h1, h2⟩ => ⟨ts, h.reads h1, h2⟩
  | .empty _, _, h1 => h1
  | .project _ i _, _, ⟨ts, us, h1, h2, h3⟩ => ⟨ts, us, h.columns i _ h1, h.holds h2, h3⟩
  | .join _ l r _, _, ⟨d, h1, h2⟩ => ⟨d, joinCols_imp (h.columns l) (h.columns r) h1, h2⟩
  | .concat _ l r, _, ⟨a, b, h1, h2, h3⟩ => ⟨a, b, h.columns l _ h1, h.columns r _ h2, h3⟩
  | .pass _ i, _, ⟨ts, h1, h2⟩ => ⟨ts, h.columns i _ h1, h2⟩
  | .aggregate _ _, _, ⟨ts, h1, h2⟩ => ⟨ts, h.holds h1, h2⟩

theorem MemExtends.columns_back {m m' : RMem} (h : MemExtends m m') : ∀ (r : MRel), r.Safe m →
    ∀ (a : List Ty), r.Columns m' a → r.Columns m a
  | .scan _ _, ⟨_, us, hu⟩, _, ⟨ts, h1, h2⟩ => by
      cases reads_functional h1 (h.reads hu); exact ⟨_, hu, h2⟩
  | .empty _, _, _, h1 => h1
  | .project _ i _, ⟨hi, vs, hv⟩, _, ⟨ts, us, h1, h2, h3⟩ => by
      cases holds_functional h2 (h.holds hv)
      exact ⟨ts, _, h.columns_back i hi _ h1, hv, h3⟩
  | .join _ l r _, ⟨hl, hr, _⟩, _, ⟨d, h1, h2⟩ =>
      ⟨d, joinCols_imp (h.columns_back l hl) (h.columns_back r hr) h1, h2⟩
  | .concat _ l r, ⟨hl, hr⟩, _, ⟨a, b, h1, h2, h3⟩ =>
      ⟨a, b, h.columns_back l hl _ h1, h.columns_back r hr _ h2, h3⟩
  | .pass _ i, hi, _, ⟨ts, h1, h2⟩ => ⟨ts, h.columns_back i hi _ h1, h2⟩
  | .aggregate _ _, ⟨us, hu⟩, _, ⟨ts, h1, h2⟩ => by
      cases holds_functional h1 (h.holds hu); exact ⟨_, hu, h2⟩

theorem concat_returned {g : Growth} {m0 m m' : RMem} {l r s : RSlice} {ls rs : List Ty}
    (hl : Returned m0 m l ls) (hr : m.Reads r rs) (h : m.concat g l r = .ok (s, m')) :
    Returned m0 m' s (ls ++ rs) ∧ (rs ≠ [] → m0.arrs.length ≤ s.arr) := by
  obtain ⟨xs, hx, h⟩ := Res.bind_eq_ok.1 h
  obtain ⟨xs', hx', hh⟩ := reads_iff_elems.1 hr
  rw [hx] at hx'
  cases hx'
  obtain ⟨h1, h2⟩ := append_returned hl hh h
  refine ⟨h1, fun hne => h2 ?_⟩
  rintro rfl
  cases hh
  exact hne rfl

theorem inPlace_returned {m0 m m' : RMem} {s : RSlice} {ts : List Ty} {xs : List Nat}
    (hs : Returned m0 m s ts) (hf : m0.arrs.length ≤ s.arr) (hx : m.elems s = .ok xs)
    (h : m.nullableInPlace s 0 xs = .ok m') : Returned m0 m' s (ts.map asNullable) := by
  obtain ⟨a, ha, hl, hxa⟩ := elems_iff.1 hx
  obtain ⟨a', ha', hl', hh⟩ := hs.reads
  rw [ha] at ha'
  cases ha'
  subst hxa
  obtain ⟨h1, h2, h3, h4, h5, bs, h6, h7⟩ := inPlace_spec (done := []) (rest := a.drop s.len)
    hs.noID rfl (by simpa using ha) hh h
  refine ⟨⟨fun b hb => ?_, fun o ho => ?_, ?_, Nat.le_trans hs.ext.olen h4⟩, h5, ?_, Or.inl hf⟩
  · rw [h1 b (by omega), hs.ext.arrs b hb]
  · rw [h3 o (Nat.lt_of_lt_of_le ho hs.ext.olen), hs.ext.objs o ho]
  · rw [h2]; exact hs.ext.len
  · have hbl : bs.length = s.len := by
      have e1 := List.Forall₂.length_eq h7
      have e2 := List.Forall₂.length_eq hh
      simp at e1 e2
      omega
    refine ⟨_, h6, by simp; omega, ?_⟩
    rw [List.nil_append, ← hbl, List.take_left]
    exact h7

theorem elems_of_reads {m : RMem} {s : RSlice} {ts : List Ty} {xs : List Nat} (h : m.Reads s ts)
    (hx : m.elems s = .ok xs) : m.Holds xs ts := by
  obtain ⟨xs', hx', hh⟩ := reads_iff_elems.1 h
  rw [hx] at hx'
  cases hx'
  exact hh

/-- Conclude with the output mapping. -/
theorem finish {m0 m m' : RMem} {s s' : RSlice} {ts : List Ty} (h : Returned m0 m s ts)
    {mp : Option (List Int32)} {n : Nat} (hn : ts.length = n) (hr : m.remap mp s = .ok (s', m')) :
    ∃ out, Mapped mp ts out ∧ Returned m0 m' s' out ∧ out.length = mappedWidth mp n := by
  obtain ⟨out, h1, h2⟩ := remap_returned h hr
  exact ⟨out, h1, h2, by rw [mapped_length h1, hn]⟩

theorem recordType_spec (g : Growth) : ∀ (r : MRel) (m : RMem) (s : RSlice) (m' : RMem),
    r.Safe m → m.NoIntervalDay → r.recordType g m = .ok (s, m') →
    ∃ ts, r.Columns m ts ∧ Returned m m' s ts ∧ ts.length = r.width
  | .scan mp sc, m, s, m', ⟨hf, ts, hts⟩, hn, h => by
      have hl : ts.length = sc.len := by
        obtain ⟨a, _, hl, hh⟩ := hts
        have := List.Forall₂.length_eq hh
        simp at this
        omega
      obtain ⟨out, h1, h2, h3⟩ := finish ⟨MemExtends.refl m, hn, hts, Or.inr hf⟩ hl h
      exact ⟨out, ⟨ts, hts, h1⟩, h2, h3⟩
  | .empty mp, m, s, m', _, hn, h => by
      obtain ⟨out, h1, h2, h3⟩ := finish
        (alloc_returned (MemExtends.refl m) hn (List.Forall₂.nil : m.Holds [] []) 0) rfl h
      exact ⟨out, h1, h2, h3⟩
  | .project mp i as, m, s, m', ⟨hi, us, hus⟩, hn, h => by
      simp only [MRel.recordType] at h
      obtain ⟨⟨s1, m1⟩, h1, h⟩ := Res.bind_eq_ok.1 h
      obtain ⟨xs, hx, h⟩ := Res.bind_eq_ok.1 h
      obtain ⟨ts, hc, hr, hw⟩ := recordType_spec g i m s1 m1 hi hn h1
      obtain ⟨out, e1, e2, e3⟩ := finish (n := i.width + as.length)
        (alloc_returned hr.ext hr.noID (holds_append (elems_of_reads hr.reads hx) (hr.ext.holds hus)) _)
        (by simp [hw, List.Forall₂.length_eq hus]) h
      exact ⟨out, ⟨ts, us, hc, hus, e1⟩, e2, e3⟩
  | .join mp l r ty, m, s, m', ⟨hl, hr, ho⟩, hn, h => by
      have two : ∀ ls m1 rs m2, l.recordType g m = .ok (ls, m1) → r.recordType g m1 = .ok (rs, m2) →
          ∃ lt rt, l.Columns m lt ∧ r.Columns m rt ∧ Returned m m2 ls lt ∧ m2.Reads rs rt ∧
            lt.length = l.width ∧ rt.length = r.width := by
        intro ls m1 rs m2 h1 h2
        obtain ⟨lt, c1, r1, w1⟩ := recordType_spec g l m ls m1 hl hn h1
        obtain ⟨rt, c2, r2, w2⟩ := recordType_spec g r m1 rs m2 (r1.ext.safe r hr) r1.noID h2
        exact ⟨lt, _, c1, r1.ext.columns_back r hr _ c2, r1.mono r2.ext r2.noID, r2.reads, w1, w2⟩
      have left : ∀ ls m1 rs m2 s m', l.recordType g m = .ok (ls, m1) →
          r.recordType g m1 = .ok (rs, m2) →
          (m2.elems ls >>= fun xs => m2.elems rs >>= fun ys =>
            m2.nullables ys >>= fun (ys, m) => .ok (m.alloc (xs ++ ys) 0)) = .ok (s, m') →
          ∃ lt rt, l.Columns m lt ∧ r.Columns m rt ∧ lt.length = l.width ∧ rt.length = r.width ∧
            Returned m m' s (lt ++ rt.map asNullable) := by
        intro ls m1 rs m2 s m' h1 h2 h
        obtain ⟨lt, rt, c1, c2, r1, r2, w1, w2⟩ := two _ _ _ _ h1 h2
        obtain ⟨xs, hx, h⟩ := Res.bind_eq_ok.1 h
        obtain ⟨ys, hy, h⟩ := Res.bind_eq_ok.1 h
        obtain ⟨⟨zs, m3⟩, hz, h⟩ := Res.bind_eq_ok.1 h
        obtain ⟨e1, e2, e3, e4⟩ := nullables_spec r1.noID (elems_of_reads r2 hy) hz
        have := alloc_returned (r1.ext.trans e1) e2
          (holds_append (e1.holds (elems_of_reads r1.reads hx)) e4) 0
        simp only [Res.ok.injEq] at h
        rw [h] at this
        exact ⟨lt, rt, c1, c2, w1, w2, this⟩
      have right : ∀ ls m1 rs m2 s m', l.recordType g m = .ok (ls, m1) →
          r.recordType g m1 = .ok (rs, m2) →
          (m2.elems ls >>= fun xs => m2.elems rs >>= fun ys =>
            m2.nullables xs >>= fun (xs, m) => .ok (m.alloc (xs ++ ys) 0)) = .ok (s, m') →
          ∃ lt rt, l.Columns m lt ∧ r.Columns m rt ∧ lt.length = l.width ∧ rt.length = r.width ∧
            Returned m m' s (lt.map asNullable ++ rt) := by
        intro ls m1 rs m2 s m' h1 h2 h
        obtain ⟨lt, rt, c1, c2, r1, r2, w1, w2⟩ := two _ _ _ _ h1 h2
        obtain ⟨xs, hx, h⟩ := Res.bind_eq_ok.1 h
        obtain ⟨ys, hy, h⟩ := Res.bind_eq_ok.1 h
        obtain ⟨⟨zs, m3⟩, hz, h⟩ := Res.bind_eq_ok.1 h
        obtain ⟨e1, e2, e3, e4⟩ := nullables_spec r1.noID (elems_of_reads r1.reads hx) hz
        have := alloc_returned (r1.ext.trans e1) e2
          (holds_append e4 (e1.holds (elems_of_reads r2 hy))) 0
        simp only [Res.ok.injEq] at h
        rw [h] at this
        exact ⟨lt, rt, c1, c2, w1, w2, this⟩
      simp only [MRel.recordType] at h
      obtain ⟨⟨s3, m3⟩, hj, h⟩ := Res.bind_eq_ok.1 h
      suffices hd : ∃ d, joinCols ty (l.Columns m) (r.Columns m) d ∧ Returned m m3 s3 d ∧
          mappedWidth mp d.length = (MRel.join mp l r ty).width by
        obtain ⟨d, d1, d2, d3⟩ := hd
        obtain ⟨out, e1, e2, e3⟩ := finish d2 rfl h
        exact ⟨out, ⟨d, d1, e1⟩, e2, e3.trans d3⟩
      cases ty <;> simp only [joinCols, MRel.width]
      case inner =>
        obtain ⟨⟨ls, m1⟩, h1, hj⟩ := Res.bind_eq_ok.1 hj
        obtain ⟨⟨rs, m2⟩, h2, hj⟩ := Res.bind_eq_ok.1 hj
        obtain ⟨lt, rt, c1, c2, r1, r2, w1, w2⟩ := two _ _ _ _ h1 h2
        exact ⟨_, ⟨lt, rt, c1, c2, rfl⟩, (concat_returned r1 r2 hj).1, by simp [w1, w2]⟩
      case outer =>
        obtain ⟨⟨ls, m1⟩, h1, hj⟩ := Res.bind_eq_ok.1 hj
        obtain ⟨⟨rs, m2⟩, h2, hj⟩ := Res.bind_eq_ok.1 hj
        obtain ⟨⟨s4, m4⟩, h3, hj⟩ := Res.bind_eq_ok.1 hj
        obtain ⟨xs, hx, hj⟩ := Res.bind_eq_ok.1 hj
        obtain ⟨m5, h5, hj⟩ := Res.bind_eq_ok.1 hj
        cases hj
        obtain ⟨lt, rt, c1, c2, r1, r2, w1, w2⟩ := two _ _ _ _ h1 h2
        obtain ⟨e1, e2⟩ := concat_returned r1 r2 h3
        have hne : rt ≠ [] := by
          rintro rfl
          have := ho rfl
          simp at w2
          omega
        exact ⟨_, ⟨lt, rt, c1, c2, rfl⟩, inPlace_returned e1 (e2 hne) hx h5, by simp [w1, w2]⟩
      case left | leftSingle =>
        obtain ⟨⟨ls, m1⟩, h1, hj⟩ := Res.bind_eq_ok.1 hj
        obtain ⟨⟨rs, m2⟩, h2, hj⟩ := Res.bind_eq_ok.1 hj
        obtain ⟨lt, rt, c1, c2, w1, w2, e⟩ := left _ _ _ _ _ _ h1 h2 hj
        exact ⟨_, ⟨lt, rt, c1, c2, rfl⟩, e, by simp [w1, w2]⟩
      case right | rightSingle =>
        obtain ⟨⟨ls, m1⟩, h1, hj⟩ := Res.bind_eq_ok.1 hj
        obtain ⟨⟨rs, m2⟩, h2, hj⟩ := Res.bind_eq_ok.1 hj
        obtain ⟨lt, rt, c1, c2, w1, w2, e⟩ := right _ _ _ _ _ _ h1 h2 hj
        exact ⟨_, ⟨lt, rt, c1, c2, rfl⟩, e, by simp [w1, w2]⟩
      case leftSemi | leftAnti =>
        obtain ⟨lt, c1, r1, w1⟩ := recordType_spec g l m _ _ hl hn hj
        exact ⟨lt, c1, r1, by rw [w1]⟩
      case rightSemi | rightAnti =>
        obtain ⟨lt, c1, r1, w1⟩ := recordType_spec g r m _ _ hr hn hj
        exact ⟨lt, c1, r1, by rw [w1]⟩
      case unspecified | other =>
        have := alloc_returned (MemExtends.refl m) hn (List.Forall₂.nil : m.Holds [] []) 0
        simp only [Res.ok.injEq] at hj
        rw [hj] at this
        exact ⟨[], rfl, this, rfl⟩
  | .concat mp l r, m, s, m', ⟨hl, hr⟩, hn, h => by
      simp only [MRel.recordType] at h
      obtain ⟨⟨ls, m1⟩, h1, h⟩ := Res.bind_eq_ok.1 h
      obtain ⟨⟨rs, m2⟩, h2, h⟩ := Res.bind_eq_ok.1 h
      obtain ⟨⟨s3, m3⟩, h3, h⟩ := Res.bind_eq_ok.1 h
      obtain ⟨lt, c1, r1, w1⟩ := recordType_spec g l m ls m1 hl hn h1
      obtain ⟨rt, c2, r2, w2⟩ := recordType_spec g r m1 rs m2 (r1.ext.safe r hr) r1.noID h2
      obtain ⟨out, e1, e2, e3⟩ := finish (n := l.width + r.width)
        (concat_returned (r1.mono r2.ext r2.noID) r2.reads h3).1 (by simp [w1, w2]) h
      exact ⟨out, ⟨lt, rt, c1, r1.ext.columns_back r hr _ c2, e1⟩, e2, e3⟩
  | .pass mp i, m, s, m', hi, hn, h => by
      obtain ⟨⟨s1, m1⟩, h1, h⟩ := Res.bind_eq_ok.1 h
      obtain ⟨ts, hc, hr, hw⟩ := recordType_spec g i m s1 m1 hi hn h1
      obtain ⟨out, e1, e2, e3⟩ := finish hr hw h
      exact ⟨out, ⟨ts, hc, e1⟩, e2, e3⟩
  | .aggregate mp as, m, s, m', ⟨ts, hts⟩, hn, h => by
      obtain ⟨out, h1, h2, h3⟩ := finish (n := as.length)
        (alloc_returned (MemExtends.refl m) hn hts _) (List.Forall₂.length_eq hts).symm h
      exact ⟨out, ⟨ts, hts, h1⟩, h2, h3⟩

theorem elems_ok {m : RMem} {s : RSlice} {ts : List Ty} (h : m.Reads s ts) :
    ∃ xs, m.elems s = .ok xs := by
  obtain ⟨xs, hx, -⟩ := reads_iff_elems.1 h
  exact ⟨xs, hx⟩

theorem picks_map_back {R : α → β → Prop} {xs : List α} {ts : List β} (h : List.Forall₂ R xs ts)
    {is : List Int32} {us : List β} (hp : Picks ts is us) : ∃ ys, Picks xs is ys := by
  obtain ⟨ys, hy, -⟩ := picks_map (R := fun b a => R a b) (List.Forall₂.flip h) hp
  exact ⟨ys, hy⟩

theorem remap_ok {m : RMem} {s : RSlice} {ts out : List Ty} (h : m.Reads s ts)
    {mp : Option (List Int32)} (hm : Mapped mp ts out) : ∃ p, m.remap mp s = .ok p := by
  cases mp with
  | none => exact ⟨_, rfl⟩
  | some is =>
    obtain ⟨xs, hx, hh⟩ := reads_iff_elems.1 h
    obtain ⟨ys, hy⟩ := picks_map_back hh hm
    exact ⟨_, by simp only [RMem.remap, hx, Res.ok_bind, picks_iff.2 hy]; rfl⟩

theorem append_ok {g : Growth} {m : RMem} {s : RSlice} {ts : List Ty} (h : m.Reads s ts)
    (xs : List Nat) : ∃ p, m.append g s xs = .ok p := by
  obtain ⟨a, ha, -⟩ := h
  unfold RMem.append
  rw [ha]
  dsimp only
  split <;> exact ⟨_, rfl⟩

theorem concat_ok {g : Growth} {m : RMem} {l r : RSlice} {ls rs : List Ty} (hl : m.Reads l ls)
    (hr : m.Reads r rs) : ∃ p, m.concat g l r = .ok p := by
  obtain ⟨xs, hx⟩ := elems_ok hr
  obtain ⟨p, hp⟩ := append_ok (g := g) hl xs
  exact ⟨p, by simp only [RMem.concat, hx, Res.ok_bind, hp]⟩

theorem withNullabilityAt_ok {objs : TypeMem} {a : Nat} {t : Ty} (n : Nullability)
    (h : objs[a]? = some t) : ∃ p, withNullabilityAt objs a n = .ok p := by
  unfold withNullabilityAt
  rw [h]
  split
  · simp_all
  · exact ⟨_, rfl⟩
  · exact ⟨_, rfl⟩

theorem nullables_ok {m : RMem} {as : List Nat} {ts : List Ty} (hn : m.NoIntervalDay)
    (ha : m.Holds as ts) : ∃ p, m.nullables as = .ok p := by
  induction as generalizing m ts with
  | nil => exact ⟨_, rfl⟩
  | cons a as ih =>
    obtain ⟨t, ts, ht, hts, rfl⟩ := List.forall₂_cons_left_iff.1 ha
    obtain ⟨⟨objs, b⟩, hw⟩ := withNullabilityAt_ok NullabilityNullable ht
    obtain ⟨rfl, rfl⟩ := withNullability_noID hn ht hw
    obtain ⟨he, hn'⟩ := push_obj hn ht
    obtain ⟨p, hp⟩ := ih hn' (he.holds hts)
    exact ⟨_, by simp only [RMem.nullables, hw, Res.ok_bind, hp]; rfl⟩

theorem inPlace_ok {s : RSlice} {m : RMem} {as : List Nat} {ts : List Ty} {i : Nat}
    (hn : m.NoIntervalDay) (ha : m.Holds as ts) : ∃ m', m.nullableInPlace s i as = .ok m' := by
  induction as generalizing m ts i with
  | nil => exact ⟨_, rfl⟩
  | cons a as ih =>
    obtain ⟨t, ts, ht, hts, rfl⟩ := List.forall₂_cons_left_iff.1 ha
    obtain ⟨⟨objs, b⟩, hw⟩ := withNullabilityAt_ok NullabilityNullable ht
    obtain ⟨rfl, rfl⟩ := withNullability_noID hn ht hw
    obtain ⟨he, hn'⟩ := push_obj hn ht
    obtain ⟨p, hp⟩ := ih (m := RMem.store { m with objs := m.objs ++ [asNullable t] } s i m.objs.length)
      (i := i + 1) hn' (he.holds hts)
    exact ⟨p, by simp only [RMem.nullableInPlace, hw, Res.ok_bind, hp]⟩

theorem recordType_total (g : Growth) : ∀ (r : MRel) (m : RMem) (ts : List Ty),
    r.Safe m → m.NoIntervalDay → r.Columns m ts → ∃ s m', r.recordType g m = .ok (s, m')
  | .scan mp sc, m, out, _, hn, ⟨ts, h1, h2⟩ => by
      obtain ⟨⟨s, m'⟩, hp⟩ := remap_ok h1 h2
      exact ⟨s, m', hp⟩
  | .empty mp, m, out, _, hn, h => by
      obtain ⟨⟨s, m'⟩, hp⟩ := remap_ok
        (alloc_returned (MemExtends.refl m) hn (List.Forall₂.nil : m.Holds [] []) 0).reads h
      exact ⟨s, m', hp⟩
  | .project mp i as, m, out, ⟨hi, vs, hv⟩, hn, ⟨ts, us, h1, h2, h3⟩ => by
      obtain ⟨s1, m1, e1⟩ := recordType_total g i m ts hi hn h1
      obtain ⟨ts', hc, hr, -⟩ := recordType_spec g i m s1 m1 hi hn e1
      cases columns_functional m i _ _ hc h1
      obtain ⟨xs, hx⟩ := elems_ok hr.reads
      obtain ⟨⟨s, m'⟩, hp⟩ := remap_ok (alloc_returned hr.ext hr.noID
        (holds_append (elems_of_reads hr.reads hx) (hr.ext.holds h2)) (g xs.length as.length)).reads h3
      exact ⟨s, m', by simp only [MRel.recordType, e1, Res.ok_bind, hx]; exact hp⟩
  | .join mp l r ty, m, out, ⟨hl, hr, ho⟩, hn, ⟨d, h1, h2⟩ => by
      have hs : (MRel.join none l r ty).Safe m := ⟨hl, hr, ho⟩
      suffices h : ∃ s m', (MRel.join none l r ty).recordType g m = .ok (s, m') by
        obtain ⟨s1, m1, e1⟩ := h
        obtain ⟨d', ⟨d2, hc, hd⟩, hr, -⟩ := recordType_spec g _ m s1 m1 hs hn e1
        cases hd
        cases joinCols_functional (columns_functional m l) (columns_functional m r) hc h1
        obtain ⟨⟨s, m'⟩, hp⟩ := remap_ok hr.reads h2
        refine ⟨s, m', ?_⟩
        simp only [MRel.recordType] at e1 ⊢
        obtain ⟨⟨s2, m2⟩, e2, e3⟩ := Res.bind_eq_ok.1 e1
        cases e3
        rw [e2]
        exact hp
      have two : ∀ ls rs, l.Columns m ls → r.Columns m rs → ∃ sl m1 sr m2,
          l.recordType g m = .ok (sl, m1) ∧ r.recordType g m1 = .ok (sr, m2) ∧
          Returned m m2 sl ls ∧ m2.Reads sr rs := by
        intro ls rs c1 c2
        obtain ⟨sl, m1, e1⟩ := recordType_total g l m _ hl hn c1
        obtain ⟨ls', hc, r1, -⟩ := recordType_spec g l m sl m1 hl hn e1
        cases columns_functional m l _ _ hc c1
        obtain ⟨sr, m2, e2⟩ := recordType_total g r m1 rs (r1.ext.safe r hr) r1.noID (r1.ext.columns r _ c2)
        obtain ⟨rs', hc', r2, -⟩ := recordType_spec g r m1 sr m2 (r1.ext.safe r hr) r1.noID e2
        cases columns_functional m1 r _ _ hc' (r1.ext.columns r _ c2)
        exact ⟨sl, m1, sr, m2, e1, e2, r1.mono r2.ext r2.noID, r2.reads⟩
      cases ty <;> simp only [joinCols] at h1 <;> simp only [MRel.recordType]
      case inner =>
        obtain ⟨ls, rs, c1, c2, rfl⟩ := h1
        obtain ⟨sl, m1, sr, m2, e1, e2, r1, r2⟩ := two _ _ c1 c2
        obtain ⟨⟨s, m'⟩, hp⟩ := concat_ok (g := g) r1.reads r2
        exact ⟨s, m', by simp only [e1, e2, Res.ok_bind, hp]; rfl⟩
      case outer =>
        obtain ⟨ls, rs, c1, c2, rfl⟩ := h1
        obtain ⟨sl, m1, sr, m2, e1, e2, r1, r2⟩ := two _ _ c1 c2
        obtain ⟨⟨s, m3⟩, hp⟩ := concat_ok (g := g) r1.reads r2
        have r3 := (concat_returned r1 r2 hp).1
        obtain ⟨xs, hx⟩ := elems_ok r3.reads
        obtain ⟨m4, h4⟩ := inPlace_ok (s := s) (i := 0) r3.noID (elems_of_reads r3.reads hx)
        exact ⟨s, m4, by simp only [e1, e2, Res.ok_bind, hp, hx, h4]; rfl⟩
      case left | leftSingle =>
        obtain ⟨ls, rs, c1, c2, rfl⟩ := h1
        obtain ⟨sl, m1, sr, m2, e1, e2, r1, r2⟩ := two _ _ c1 c2
        obtain ⟨xs, hx⟩ := elems_ok r1.reads
        obtain ⟨ys, hy⟩ := elems_ok r2
        obtain ⟨p, hp⟩ := nullables_ok r1.noID (elems_of_reads r2 hy)
        exact ⟨_, _, by simp only [e1, e2, Res.ok_bind, hp, hx, hy]; rfl⟩
      case right | rightSingle =>
        obtain ⟨ls, rs, c1, c2, rfl⟩ := h1
        obtain ⟨sl, m1, sr, m2, e1, e2, r1, r2⟩ := two _ _ c1 c2
        obtain ⟨xs, hx⟩ := elems_ok r1.reads
        obtain ⟨ys, hy⟩ := elems_ok r2
        obtain ⟨p, hp⟩ := nullables_ok r1.noID (elems_of_reads r1.reads hx)
        exact ⟨_, _, by simp only [e1, e2, Res.ok_bind, hp, hx, hy]; rfl⟩
      case leftSemi | leftAnti =>
        obtain ⟨s, m', e⟩ := recordType_total g l m _ hl hn h1
        exact ⟨s, m', by simp only [e, Res.ok_bind]; rfl⟩
      case rightSemi | rightAnti =>
        obtain ⟨s, m', e⟩ := recordType_total g r m _ hr hn h1
        exact ⟨s, m', by simp only [e, Res.ok_bind]; rfl⟩
      case unspecified | other => exact ⟨_, _, rfl⟩
  | .concat mp l r, m, out, ⟨hl, hr⟩, hn, ⟨ls, rs, c1, c2, c3⟩ => by
      obtain ⟨sl, m1, e1⟩ := recordType_total g l m _ hl hn c1
      obtain ⟨ls', hc, r1, -⟩ := recordType_spec g l m sl m1 hl hn e1
      cases columns_functional m l _ _ hc c1
      obtain ⟨sr, m2, e2⟩ := recordType_total g r m1 rs (r1.ext.safe r hr) r1.noID (r1.ext.columns r _ c2)
      obtain ⟨rs', hc', r2, -⟩ := recordType_spec g r m1 sr m2 (r1.ext.safe r hr) r1.noID e2
      cases columns_functional m1 r _ _ hc' (r1.ext.columns r _ c2)
      have r1' := r1.mono r2.ext r2.noID
      obtain ⟨⟨s3, m3⟩, h3⟩ := concat_ok (g := g) r1'.reads r2.reads
      obtain ⟨⟨s, m'⟩, hp⟩ := remap_ok (concat_returned r1' r2.reads h3).1.reads c3
      exact ⟨s, m', by simp only [MRel.recordType, e1, e2, h3, Res.ok_bind, hp]⟩
  | .pass mp i, m, out, hi, hn, ⟨ts, h1, h2⟩ => by
      obtain ⟨s1, m1, e1⟩ := recordType_total g i m ts hi hn h1
      obtain ⟨ts', hc, hr, -⟩ := recordType_spec g i m s1 m1 hi hn e1
      cases columns_functional m i _ _ hc h1
      obtain ⟨⟨s, m'⟩, hp⟩ := remap_ok hr.reads h2
      exact ⟨s, m', by simp only [MRel.recordType, e1, Res.ok_bind, hp]⟩
  | .aggregate mp as, m, out, _, hn, ⟨ts, h1, h2⟩ => by
      obtain ⟨⟨s, m'⟩, hp⟩ := remap_ok
        (alloc_returned (MemExtends.refl m) hn h1 (g 0 as.length)).reads h2
      exact ⟨s, m', hp⟩

end Verif
