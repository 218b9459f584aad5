import Verif.Spec.ExtSet
import Verif.Lemmas.GoMap
import Mathlib.Data.List.Perm.Subperm
/-! # Lemmas about extension sets -/

namespace Verif

theorem next_toNat (n : Nat) (h : n + 1 < 2 ^ 32) : (UInt32.ofNat n + 1).toNat = n + 1 := by
  rw [UInt32.toNat_add, UInt32.toNat_ofNat']
  simp
  omega

theorem addOrGetURN_spec (m : GoMap UInt32 String) (u : String)
    (hc : ∀ a u, m.get a = some u → a.toNat ≤ m.len)
    (hl0 : (∀ a, m.get a ≠ some u) → m.len + 1 < 2 ^ 32) :
    ∃ m', addOrGetURN m u = .ok m' ∧ (∀ a v, m.get a = some v → m'.get a = some v) ∧
      (∃ a, m'.get a = some u) ∧ (∀ a v, m'.get a = some v → a.toNat ≤ m'.len) ∧
      ((∀ a b v, m.get a = some v → m.get b = some v → a = b) →
        ∀ a b v, m'.get a = some v → m'.get b = some v → a = b) ∧
      (∀ a v, m'.get a = some v → m.get a = some v ∨ v = u) ∧
      m'.len ≤ m.len + 1 := by
  unfold addOrGetURN
  by_cases hu : m.entries.any (fun p => p.2 = u) = true
  · refine ⟨m, by simp [hu], fun _ _ h => h, ?_, hc, fun h => h, fun _ _ h => .inl h, by omega⟩
    simp only [List.any_eq_true, decide_eq_true_eq] at hu
    obtain ⟨⟨a, v⟩, h1, rfl⟩ := hu
    exact ⟨a, (m.get_eq_some _ _).2 h1⟩
  · have hfresh : ∀ a, m.get a ≠ some u := by
      intro a ha
      apply hu
      simp only [List.any_eq_true, decide_eq_true_eq]
      exact ⟨(a, u), (m.get_eq_some _ _).1 ha, rfl⟩
    have hl := hl0 hfresh
    have hn : m.get (UInt32.ofNat m.len + 1) = none := by
      cases hg : m.get (UInt32.ofNat m.len + 1) with
      | none => rfl
      | some x => have := hc _ _ hg; rw [next_toNat _ hl] at this; omega
    refine ⟨m.set (UInt32.ofNat m.len + 1) u, by simp [hu, hn], ?_,
      ⟨UInt32.ofNat m.len + 1, by rw [GoMap.get_set]; simp⟩,
      ?_, ?_, ?_, by rw [GoMap.len_set_new _ _ _ hn]; exact Nat.le_refl _⟩
    · intro a v h
      rw [GoMap.get_set]
      split
      · next e => rw [e, hn] at h; cases h
      · exact h
    · intro a v h
      rw [GoMap.len_set_new _ _ _ hn]
      rw [GoMap.get_set] at h
      split at h
      · next e => rw [e, next_toNat _ hl]; exact Nat.le_refl _
      · have := hc _ _ h; omega
    · intro hi a b v h1 h2
      rw [GoMap.get_set] at h1 h2
      split at h1 <;> split at h2
      · next e1 e2 => rw [e1, e2]
      · injection h1 with h1; subst h1; exact absurd h2 (hfresh b)
      · injection h2 with h2; subst h2; exact absurd h1 (hfresh a)
      · exact hi a b v h1 h2
    · intro a v h
      rw [GoMap.get_set] at h
      split at h
      · injection h with h; exact .inr h.symm
      · exact .inl h

@[simp] theorem table_withTable (s : ExtSet) (k k' : ExtKind) (t : IdTable) :
    (s.withTable k t).table k' = if k' = k then t else s.table k' := by
  cases k <;> cases k' <;> rfl
@[simp] theorem urns_withTable (s : ExtSet) (k : ExtKind) (t : IdTable) :
    (s.withTable k t).urns = s.urns := by cases k <;> rfl
@[simp] theorem table_urns (s : ExtSet) (u) (k : ExtKind) :
    ({ s with urns := u } : ExtSet).table k = s.table k := by cases k <;> rfl

/-- what a request for a new id does -/
theorem getAnchor_new (s : ExtSet) (k : ExtKind) (id : ExtId) (hc : s.Compact)
    (hn : s.anchor k id = none) (hl : s.count k + 1 < 2 ^ 32)
    (hu : (∀ b, s.urns.get b ≠ some id.urn) → s.urns.len + 1 < 2 ^ 32) :
    ∃ a s', s.getAnchor k id = .ok (a, s') ∧ a.toNat = s.count k + 1 ∧ s'.Compact ∧
      s.decode k a = none ∧
      (∀ k' a', s'.decode k' a' = if k' = k ∧ a' = a then some id else s.decode k' a') ∧
      (∀ k' i, s'.anchor k' i = if k' = k ∧ i = id then some a else s.anchor k' i) ∧
      (∀ k', s'.count k' = if k' = k then s.count k' + 1 else s.count k') ∧
      (∀ b v, s.urns.get b = some v → s'.urns.get b = some v) ∧
      (∃ b, s'.urns.get b = some id.urn) ∧
      ((∀ b c v, s.urns.get b = some v → s.urns.get c = some v → b = c) →
        ∀ b c v, s'.urns.get b = some v → s'.urns.get c = some v → b = c) ∧
      (∀ b v, s'.urns.get b = some v → s.urns.get b = some v ∨ v = id.urn) ∧
      s'.urns.len ≤ s.urns.len + 1 := by
  obtain ⟨m', h1, h2, h3, h4, h5, h6, h7⟩ := addOrGetURN_spec s.urns id.urn hc.2 hu
  have hn' : (s.table k).byId.get id = none := hn
  have ha := next_toNat (s.table k).byId.len hl
  have hd : s.decode k (UInt32.ofNat (s.table k).byId.len + 1) = none := by
    cases hg : s.decode k (UInt32.ofNat (s.table k).byId.len + 1) with
    | none => rfl
    | some x =>
      have := hc.1 _ _ _ hg
      rw [ha] at this
      unfold ExtSet.count at this
      omega
  have hcount : ∀ k', ExtSet.count ({ s with urns := m' }.withTable k
      ((s.table k).encode (UInt32.ofNat (s.table k).byId.len + 1) id)) k' =
      if k' = k then s.count k' + 1 else s.count k' := by
    intro k'
    simp only [ExtSet.count, table_withTable]
    split
    · next e => subst e; simp [IdTable.encode, GoMap.len_set_new _ _ _ hn']
    · simp
  have hdec : ∀ k' a', ExtSet.decode ({ s with urns := m' }.withTable k
      ((s.table k).encode (UInt32.ofNat (s.table k).byId.len + 1) id)) k' a' =
      if k' = k ∧ a' = UInt32.ofNat (s.table k).byId.len + 1 then some id else s.decode k' a' := by
    intro k' a'
    simp only [ExtSet.decode, table_withTable]
    by_cases e : k' = k
    · subst e; simp [IdTable.encode, GoMap.get_set]
    · simp [e]
  refine ⟨UInt32.ofNat (s.table k).byId.len + 1, _, by simp only [ExtSet.getAnchor, hn', h1],
    ha, ⟨?_, by simpa using h4⟩, hd, hdec, ?_, hcount, by simpa using h2, by simpa using h3,
    by simpa using h5, by simpa using h6, by simpa using h7⟩
  · intro k' a' i h
    rw [hdec] at h
    rw [hcount]
    split at h
    · next e => rw [if_pos e.1, e.2, ha, e.1]; exact Nat.le_refl _
    · have := hc.1 _ _ _ h
      split <;> omega
  · intro k' i
    simp only [ExtSet.anchor, table_withTable]
    by_cases e : k' = k
    · subst e; simp [IdTable.encode, GoMap.get_set]
    · simp [e]

theorem getAnchor_old (s : ExtSet) (k : ExtKind) (id : ExtId) (a : UInt32)
    (h : s.anchor k id = some a) : s.getAnchor k id = .ok (a, s) := by
  have h' : (s.table k).byId.get id = some a := h
  simp [ExtSet.getAnchor, h']

/-! ### histories of a fresh set -/

/-- the invariant of sets made by requests among `L` -/
structure FreshInv (L : List AnchorReq) (s : ExtSet) : Prop where
  compact : s.Compact
  tidy : s.Tidy
  ids : ∀ k id a, s.anchor k id = some a → (⟨k, id⟩ : AnchorReq) ∈ L
  urns : ∀ a u, s.urns.get a = some u → ∃ r ∈ L, r.id.urn = u

theorem freshInv_new (L : List AnchorReq) : FreshInv L ExtSet.new := by
  refine ⟨⟨?_, ?_⟩, ⟨?_, ?_, ?_⟩, ?_, ?_⟩ <;>
    simp [ExtSet.new, ExtSet.decode, ExtSet.anchor] <;> intro k <;> cases k <;>
    simp [ExtSet.table]

theorem count_lt {L : List AnchorReq} {s : ExtSet} (h : FreshInv L s) (k : ExtKind) (id : ExtId)
    (hm : (⟨k, id⟩ : AnchorReq) ∈ L) (hn : s.anchor k id = none) : s.count k + 1 ≤ L.length := by
  have hnd : (id :: (s.table k).byId.entries.map Prod.fst).Nodup := by
    rw [List.nodup_cons]
    refine ⟨?_, (s.table k).byId.nodup⟩
    intro hh
    obtain ⟨⟨i, a⟩, h1, h2⟩ := List.mem_map.1 hh
    simp only at h2
    subst h2
    exact (GoMap.get_eq_none _ _).1 hn a h1
  have hnd2 : ((id :: (s.table k).byId.entries.map Prod.fst).map (AnchorReq.mk k)).Nodup :=
    hnd.map (fun a b h => by injection h)
  have hsub : ((id :: (s.table k).byId.entries.map Prod.fst).map (AnchorReq.mk k)) ⊆ L := by
    intro r hr
    obtain ⟨i, hi, rfl⟩ := List.mem_map.1 hr
    rcases List.mem_cons.1 hi with rfl | hi
    · exact hm
    · obtain ⟨⟨i, a⟩, h1, rfl⟩ := List.mem_map.1 hi
      exact h.ids k i a ((GoMap.get_eq_some _ _ _).2 h1)
  have := (hnd2.subperm hsub).length_le
  simpa [ExtSet.count, GoMap.len] using this

theorem urns_lt {L : List AnchorReq} {s : ExtSet} (h : FreshInv L s) (r : AnchorReq) (hr : r ∈ L)
    (hn : ∀ b, s.urns.get b ≠ some r.id.urn) : s.urns.len + 1 ≤ L.length := by
  have hnd : (r.id.urn :: s.urns.entries.map Prod.snd).Nodup := by
    rw [List.nodup_cons]
    constructor
    · intro hh
      obtain ⟨⟨a, v⟩, h1, h2⟩ := List.mem_map.1 hh
      simp only at h2
      subst h2
      exact hn a ((GoMap.get_eq_some _ _ _).2 h1)
    apply List.Nodup.map_on _ s.urns.nodup.of_map
    rintro ⟨a, u⟩ h1 ⟨b, v⟩ h2 e
    simp only at e
    subst e
    rw [h.tidy.2.1 a b u ((GoMap.get_eq_some _ _ _).2 h1) ((GoMap.get_eq_some _ _ _).2 h2)]
  have hsub : (r.id.urn :: s.urns.entries.map Prod.snd) ⊆ L.map (fun r => r.id.urn) := by
    intro u hu
    rcases List.mem_cons.1 hu with rfl | hu
    · exact List.mem_map.2 ⟨r, hr, rfl⟩
    obtain ⟨⟨a, v⟩, h1, rfl⟩ := List.mem_map.1 hu
    obtain ⟨r, h2, h3⟩ := h.urns a v ((GoMap.get_eq_some _ _ _).2 h1)
    exact List.mem_map.2 ⟨r, h2, h3⟩
  have := (hnd.subperm hsub).length_le
  simpa [GoMap.len] using this

theorem freshInv_step {L : List AnchorReq} (hL : L.length < 2 ^ 32) {s : ExtSet}
    (h : FreshInv L s) (k : ExtKind) (id : ExtId) (hm : (⟨k, id⟩ : AnchorReq) ∈ L) :
    ∃ a s', s.getAnchor k id = .ok (a, s') ∧ FreshInv L s' ∧ s'.anchor k id = some a ∧
      (∀ k' i b, s.anchor k' i = some b → s'.anchor k' i = some b) := by
  cases hg : s.anchor k id with
  | some a => exact ⟨a, s, getAnchor_old s k id a hg, h, hg, fun _ _ _ h => h⟩
  | none =>
    have c1 := count_lt h k id hm hg
    have c2 := urns_lt h ⟨k, id⟩ hm
    obtain ⟨a, s', e, _, hc, hd, hdec, hanc, _, hu1, hu2, hu3, hu4, _⟩ :=
      getAnchor_new s k id h.compact hg (by omega) (fun h' => by have := c2 h'; omega)
    refine ⟨a, s', e, ⟨hc, ⟨?_, hu3 h.tidy.2.1, ?_⟩, ?_, ?_⟩, by simp [hanc], ?_⟩
    · intro k' a' i
      rw [hdec, hanc]
      by_cases hk : k' = k
      · subst hk
        by_cases e1 : a' = a <;> by_cases e2 : i = id
        · simp [e1, e2]
        · simp only [e1, e2, and_true, and_false, if_true, if_false]
          constructor
          · intro h'; injection h' with h'; exact absurd h'.symm e2
          · intro h'; rw [← h.tidy.1, hd] at h'; cases h'
        · simp only [e1, e2, and_true, and_false, if_true, if_false]
          constructor
          · intro h'; rw [h.tidy.1, hg] at h'; cases h'
          · intro h'; injection h' with h'; exact absurd h'.symm e1
        · simpa [e1, e2] using h.tidy.1 k' a' i
      · simpa [hk] using h.tidy.1 k' a' i
    · intro k' a' i h'
      rw [hdec] at h'
      split at h'
      · injection h' with h'; subst h'; exact hu2
      · obtain ⟨u, hu⟩ := h.tidy.2.2 _ _ _ h'
        exact ⟨u, hu1 _ _ hu⟩
    · intro k' i b h'
      rw [hanc] at h'
      split at h'
      · next e => rw [e.1, e.2]; exact hm
      · exact h.ids _ _ _ h'
    · intro b v h'
      rcases hu4 b v h' with h' | h'
      · exact h.urns _ _ h'
      · exact ⟨_, hm, h'.symm⟩
    · intro k' i b h'
      rw [hanc]
      split
      · next e => rw [e.1, e.2, hg] at h'; cases h'
      · exact h'

theorem run_fresh {L : List AnchorReq} (hL : L.length < 2 ^ 32) : ∀ (rs : List AnchorReq)
    (s : ExtSet), FreshInv L s → (∀ r ∈ rs, r ∈ L) →
    ∃ as s', s.run rs = .ok (as, s') ∧ FreshInv L s' ∧ as.length = rs.length ∧
      (∀ k' i b, s.anchor k' i = some b → s'.anchor k' i = some b) ∧
      (∀ (i : Nat) (r : AnchorReq) a, rs[i]? = some r → as[i]? = some a → s'.anchor r.kind r.id = some a)
  | [], s, h, _ => ⟨[], s, rfl, h, rfl, fun _ _ _ h => h, by simp⟩
  | r :: rs, s, h, hm => by
    obtain ⟨a, s1, e1, h1, ha, hmono⟩ := freshInv_step hL h r.kind r.id (hm r (by simp))
    obtain ⟨as, s2, e2, h2, hl, hmono2, hget⟩ :=
      run_fresh hL rs s1 h1 (fun x hx => hm x (by simp [hx]))
    refine ⟨a :: as, s2, by simp [ExtSet.run, e1, e2], h2, by simp [hl],
      fun k i b hb => hmono2 _ _ _ (hmono _ _ _ hb), ?_⟩
    intro i r' a' hr' ha'
    cases i with
    | zero =>
      simp only [List.getElem?_cons_zero, Option.some.injEq] at hr' ha'
      subst hr'; subst ha'
      exact hmono2 _ _ _ ha
    | succ i => exact hget i r' a' (by simpa using hr') (by simpa using ha')

/-! ### requests on a decoded set -/

theorem run_compact : ∀ (rs : List AnchorReq) (s : ExtSet), s.Compact →
    (∀ k, s.count k + rs.length < 2 ^ 32) → s.urns.len + rs.length < 2 ^ 32 →
    ∃ as s', s.run rs = .ok (as, s') ∧
      (∀ k a id, s.decode k a = some id → s'.decode k a = some id) ∧
      (∀ a u, s.urns.get a = some u → s'.urns.get a = some u)
  | [], s, _, _, _ => ⟨[], s, rfl, fun _ _ _ h => h, fun _ _ h => h⟩
  | r :: rs, s, hc, h1, h2 => by
    cases hg : s.anchor r.kind r.id with
    | some a =>
      obtain ⟨as, s', e, hd, hu⟩ := run_compact rs s hc
        (fun k => by have := h1 k; simp at this; omega) (by simp at h2; omega)
      exact ⟨a :: as, s', by simp [ExtSet.run, getAnchor_old s _ _ a hg, e], hd, hu⟩
    | none =>
      have h1' := h1 r.kind
      simp only [List.length_cons] at h1 h1' h2
      obtain ⟨a, s1, e, _, hc1, hd, hdec, _, hcount, hu1, _, _, _, hl⟩ :=
        getAnchor_new s r.kind r.id hc hg (by omega) (fun _ => by omega)
      obtain ⟨as, s', e', hd', hu'⟩ := run_compact rs s1 hc1
        (fun k => by rw [hcount]; have := h1 k; split <;> omega) (by omega)
      refine ⟨a :: as, s', by simp [ExtSet.run, e, e'], fun k b id hb => hd' _ _ _ ?_,
        fun b u hb => hu' _ _ (hu1 _ _ hb)⟩
      rw [hdec]
      split
      · next e => rw [e.1, e.2, hd] at hb; cases hb
      · exact hb

end Verif
