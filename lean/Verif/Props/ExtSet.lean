import Verif.Lemmas.ExtProto
/-!
# Properties of extension sets (C21, C22, C23, C24)
-/

namespace Verif

/-! ## C21 -/

/-- C21. After any sequence of requests to a new set, for fewer than 2^32 different ids (those in
`ids`): every request is answered; two requests of one kind get the same anchor exactly when they are
for the same id; every issued anchor decodes to its id; every URN asked for has exactly one anchor,
which `FindURN` finds whatever the iteration order. -/
theorem C21_anchors (reqs ids : List AnchorReq) (hids : ∀ r ∈ reqs, r ∈ ids)
    (hl : ids.length < 2 ^ 32) :
    ∃ as s, ExtSet.new.run reqs = .ok (as, s) ∧ as.length = reqs.length ∧
      (∀ (i j : Nat) (r r' : AnchorReq) (a a' : UInt32), reqs[i]? = some r → reqs[j]? = some r' →
        as[i]? = some a → as[j]? = some a' → r.kind = r'.kind → (a = a' ↔ r.id = r'.id)) ∧
      (∀ (i : Nat) (r : AnchorReq) (a : UInt32), reqs[i]? = some r → as[i]? = some a →
        s.decode r.kind a = some r.id) ∧
      (∀ r ∈ reqs, ∃ u, s.urns.get u = some r.id.urn ∧
        (∀ v, s.urns.get v = some r.id.urn → v = u) ∧
        ∀ order : List (UInt32 × String), order.Perm s.urns.entries →
          findURN order r.id.urn = some u) := by
  obtain ⟨as, s, e, hi, hlen, _, hget⟩ := run_fresh hl reqs .new (freshInv_new ids) hids
  refine ⟨as, s, e, hlen, ?_, ?_, ?_⟩
  · intro i j r r' a a' hr hr' ha ha' hk
    have h1 := hget i r a hr ha
    have h2 := hget j r' a' hr' ha'
    rw [← hk] at h2
    constructor
    · rintro rfl
      rw [← hi.tidy.1] at h1 h2
      rw [h1] at h2
      injection h2
    · intro hid
      rw [hid, h2] at h1
      injection h1 with h1
      exact h1.symm
  · intro i r a hr ha
    exact (hi.tidy.1 _ _ _).2 (hget i r a hr ha)
  · intro r hr
    obtain ⟨i, hlt, hri⟩ := List.getElem_of_mem hr
    have hlt' : i < as.length := by omega
    have hd := (hi.tidy.1 _ _ _).2 (hget i r as[i] (by simp [hri, hlt]) (by simp [hlt']))
    obtain ⟨u, hu⟩ := hi.tidy.2.2 _ _ _ hd
    refine ⟨u, hu, fun v hv => hi.tidy.2.1 _ _ _ hv hu, fun order ho => ?_⟩
    unfold findURN
    cases hf : order.find? (fun p => p.2 = r.id.urn) with
    | none =>
      rw [List.find?_eq_none] at hf
      exact absurd (by simp) (hf (u, r.id.urn) (ho.mem_iff.2 ((GoMap.get_eq_some _ _ _).1 hu)))
    | some p =>
      have h1 := List.find?_some hf
      have h2 := ho.mem_iff.1 (List.mem_of_find?_eq_some hf)
      simp only [decide_eq_true_eq] at h1
      have h3 : s.urns.get p.1 = some r.id.urn := by
        rw [GoMap.get_eq_some, ← h1]; exact h2
      simp [hi.tidy.2.1 _ _ _ h3 hu]

/-- The bound is inherent: anchors are 32-bit numbers, so more than 2^32 answers cannot all be
different. -/
theorem C21_exhausted (reqs : List AnchorReq) (as : List UInt32) (s : ExtSet)
    (_h : ExtSet.new.run reqs = .ok (as, s)) (hl : 2 ^ 32 < as.length) : ¬ as.Nodup := by
  intro hn
  have h1 : (as.map UInt32.toNat).Nodup := hn.map (fun a b h => UInt32.toNat_inj.1 h)
  have h2 : as.map UInt32.toNat ⊆ List.range (2 ^ 32) := by
    intro n hn
    obtain ⟨a, _, rfl⟩ := List.mem_map.1 hn
    exact List.mem_range.2 a.toNat_lt
  have := (h1.subperm h2).length_le
  rw [List.length_map, List.length_range] at this
  omega

/-- an id -/
def exId (n : String) : ExtId := ⟨"extension:o:n", n⟩

/-- Asking for f, g, f as functions and g as a type. -/
example :
    let reqs : List AnchorReq := [⟨.func, exId "f"⟩, ⟨.func, exId "g"⟩, ⟨.func, exId "f"⟩,
      ⟨.type, exId "g"⟩]
    (∀ r ∈ reqs, r ∈ reqs) ∧ reqs.length < 2 ^ 32 ∧
    ∃ s, ExtSet.new.run reqs = .ok ([1, 2, 1, 1], s) := by
  refine ⟨fun _ h => h, by decide, _, rfl⟩

/-! ## C22 -/

/-- C22 in full: requests on a set read from a plan never change what an anchor of the plan decodes
to. False: see `C22_negation`. -/
def C22_statement : Prop :=
  ∀ (loaded : String → Bool) (m : ExtMsg) (s s' : ExtSet) (reqs : List AnchorReq)
    (as : List UInt32), getExtensionSet loaded m = .ok s → s.run reqs = .ok (as, s') →
    ∀ k a id, s.decode k a = some id → s'.decode k a = some id

/-- C22, missing: plans with an anchor larger than the number of ids of its kind. On the other
plans all requests are answered and no existing anchor changes its meaning. -/
theorem C22_requests_partial (loaded : String → Bool) (m : ExtMsg) (s : ExtSet)
    (reqs : List AnchorReq) (_hm : getExtensionSet loaded m = .ok s) (hc : s.Compact)
    (h1 : ∀ k, s.count k + reqs.length < 2 ^ 32) (h2 : s.urns.len + reqs.length < 2 ^ 32) :
    ∃ as s', s.run reqs = .ok (as, s') ∧
      (∀ k a id, s.decode k a = some id → s'.decode k a = some id) ∧
      (∀ a u, s.urns.get a = some u → s'.urns.get a = some u) :=
  run_compact reqs s hc h1 h2

/-- a plan that declares the function f with anchor 2 -/
def exSparse : ExtMsg := ⟨[(1, "extension:o:n")], [some (.func 1 2 "f")]⟩

/-- The first anchor issued is 2, which then decodes to the new function. -/
theorem C22_negation : ¬ C22_statement := by
  intro h
  obtain ⟨s, hs⟩ : ∃ s, getExtensionSet (fun _ => true) exSparse = .ok s := ⟨_, rfl⟩
  obtain ⟨s', hs'⟩ : ∃ s', s.run [⟨.func, exId "g"⟩] = .ok ([2], s') := by
    injection hs with hs; subst hs; exact ⟨_, rfl⟩
  have := h _ _ s s' _ _ hs hs' .func 2 (exId "f") (by injection hs with hs; subst hs; rfl)
  injection hs with hs; subst hs
  injection hs' with hs'
  have e : s' = _ := (Prod.mk.inj hs').2.symm
  subst e
  exact absurd this (by decide)

/-- A request panics when the next URN anchor is taken. -/
theorem C22_panics :
    ∃ s, getExtensionSet (fun _ => true) ⟨[(2, "extension:o:n")], []⟩ = .ok s ∧
      s.run [⟨.func, ⟨"extension:o:m", "f"⟩⟩] = .panic := ⟨_, rfl, rfl⟩

/-- A plan with functions 1 and 2 meets the hypotheses. -/
example :
    let m : ExtMsg := ⟨[(1, "extension:o:n")], [some (.func 1 2 "f"), some (.func 1 1 "g")]⟩
    ∃ s, getExtensionSet (fun _ => true) m = .ok s ∧ s.Compact := by
  refine ⟨_, rfl, ?_, ?_⟩
  · intro k a id h
    cases k
    · cases h
    · cases h
    · have := (GoMap.get_eq_some _ _ _).1 h
      change (a, id) ∈ [((2 : UInt32), exId "f"), (1, exId "g")] at this
      change a.toNat ≤ 2
      simp at this
      rcases this with ⟨rfl, _⟩ | ⟨rfl, _⟩ <;> decide
  · intro a u h
    have := (GoMap.get_eq_some _ _ _).1 h
    change (a, u) ∈ [((1 : UInt32), "extension:o:n")] at this
    change a.toNat ≤ 1
    simp at this
    rcases this with ⟨rfl, _⟩
    decide

/-! ## C23 -/

/-- C23 in full: writing and reading back keeps the meaning of every anchor, whatever the iteration
orders. False: see `C23_negation`, `C23_negation_duplicate`. -/
def C23_statement : Prop :=
  ∀ (s : ExtSet) (o : Orders) (loaded : String → Bool), s.Made → o.Of s →
    (∀ a u, s.urns.get a = some u → loaded u = true) →
    ∃ p s', ExtSet.toProto o = .ok p ∧ getExtensionSet loaded (.ofProto p) = .ok s' ∧
      ∀ k a, s'.decode k a = s.decode k a

/-- C23, missing: sets with a type and two type variations (writing panics), and sets read from plans
in which anchors and ids do not correspond one to one. For the others, writing and reading back keeps
the meaning of every anchor, the anchor of every id and every URN. -/
theorem C23_roundtrip_partial (s : ExtSet) (o : Orders) (loaded : String → Bool) (ht : s.Tidy)
    (hv : s.count .type = 0 ∨ s.count .variation ≤ 1) (ho : o.Of s)
    (hload : ∀ a u, s.urns.get a = some u → loaded u = true) :
    ∃ p s', ExtSet.toProto o = .ok p ∧ getExtensionSet loaded (.ofProto p) = .ok s' ∧
      (∀ k a, s'.decode k a = s.decode k a) ∧ (∀ k id, s'.anchor k id = s.anchor k id) ∧
      (∀ a, s'.urns.get a = s.urns.get a) := by
  obtain ⟨urns, ts, vs, fs, e, hu, _, h1, _, h2, _, h3, _⟩ := toProto_spec ht ho hv
  have hmem : ∀ d, d ∈ ts ++ vs ++ fs ↔ ∃ u, s.urns.get d.urnRef = some u ∧
      s.decode d.kind d.anchor = some ⟨u, d.name⟩ := by
    intro d
    rw [List.mem_append, List.mem_append, h1.mem_iff, h2.mem_iff, h3.mem_iff, mem_declsOf ht,
      mem_declsOf ht, mem_declsOf ht]
    constructor
    · rintro ((⟨hk, h⟩ | ⟨hk, h⟩) | ⟨hk, h⟩) <;> rw [hk] <;> exact h
    · intro h
      cases hk : d.kind <;> rw [hk] at h <;> simp_all
  have hgu : ∀ a, (readURNs urns .empty).get a = s.urns.get a := by
    intro a
    apply Option.ext
    intro u
    rw [readURNs_get urns _ ((hu.map Prod.fst).nodup_iff.2 s.urns.nodup), hu.mem_iff,
      ← GoMap.get_eq_some]
    simp
  let f : Decl → ExtId := fun d => (s.decode d.kind d.anchor).getD ⟨"", ""⟩
  have hf : ∀ d ∈ ts ++ vs ++ fs, s.decode d.kind d.anchor = some (f d) ∧
      s.urns.get d.urnRef = some (f d).urn ∧ (f d).name = d.name := by
    intro d hd
    obtain ⟨u, g1, g2⟩ := (hmem d).1 hd
    simp [f, g1, g2]
  obtain ⟨s', hs, hurns, hd, ha⟩ := readDecls_spec loaded f (ts ++ vs ++ fs)
    { ExtSet.new with urns := readURNs urns .empty }
    (fun d hd => by
      obtain ⟨g1, g2, g3⟩ := hf d hd
      exact ⟨by rw [hgu]; exact g2, hload _ _ g2, g3⟩)
    (fun d hd x hx hk => by
      obtain ⟨g1, _, _⟩ := hf d hd
      obtain ⟨g4, _, _⟩ := hf x hx
      constructor
      · intro h
        rw [hk, h, g4] at g1
        injection g1 with g1
        exact g1.symm
      · intro h
        have a1 := (ht.1 _ _ _).1 g1
        have a2 := (ht.1 _ _ _).1 g4
        rw [hk, h, a2] at a1
        injection a1 with a1
        exact a1.symm)
  have hnd : ∀ k a, ExtSet.decode { ExtSet.new with urns := readURNs urns .empty } k a = none := by
    intro k a; cases k <;> rfl
  have hna : ∀ k id, ExtSet.anchor { ExtSet.new with urns := readURNs urns .empty } k id = none := by
    intro k a; cases k <;> rfl
  have key : ∀ k a id, (∃ d ∈ ts ++ vs ++ fs, d.kind = k ∧ d.anchor = a ∧ f d = id) ↔
      s.decode k a = some id := by
    intro k a id
    constructor
    · rintro ⟨d, hd, rfl, rfl, rfl⟩
      exact (hf d hd).1
    · intro h
      have hin : s.declOf k (id, a) ∈ ts ++ vs ++ fs := by
        have : s.declOf k (id, a) ∈ s.declsOf k :=
          List.mem_map.2 ⟨_, (GoMap.get_eq_some _ _ _).1 ((ht.1 _ _ _).1 h), rfl⟩
        rw [List.mem_append, List.mem_append, h1.mem_iff, h2.mem_iff, h3.mem_iff]
        cases k
        · exact .inl (.inl this)
        · exact .inl (.inr this)
        · exact .inr this
      refine ⟨_, hin, by simp, by simp, ?_⟩
      have := (hf _ hin).1
      simp only [declOf_kind, declOf_anchor] at this
      rw [h] at this
      injection this with this
      exact this.symm
  refine ⟨_, s', e, by simpa [getExtensionSet, ExtMsg.ofProto] using hs, ?_, ?_, ?_⟩
  · intro k a
    apply Option.ext
    intro id
    rw [hd, hnd, key]
    simp
  · intro k id
    apply Option.ext
    intro a
    rw [ha, hna, key, ht.1]
    simp
  · intro a
    rw [hurns]
    exact hgu a

/-- Sets made by requests to a new set meet the first hypothesis of `C23_roundtrip_partial`. -/
theorem C23_fresh_tidy (reqs ids : List AnchorReq) (hids : ∀ r ∈ reqs, r ∈ ids)
    (hl : ids.length < 2 ^ 32) (as : List UInt32) (s : ExtSet)
    (h : ExtSet.new.run reqs = .ok (as, s)) : s.Tidy := by
  obtain ⟨as', s', e, hi, _⟩ := run_fresh hl reqs .new (freshInv_new ids) hids
  rw [e] at h
  injection h with h
  rw [← (Prod.mk.inj h).2]
  exact hi.tidy

/-- C23 for new sets, missing: those with a type and two type variations. -/
theorem C23_fresh_partial (reqs ids : List AnchorReq) (hids : ∀ r ∈ reqs, r ∈ ids)
    (hl : ids.length < 2 ^ 32) (as : List UInt32) (s : ExtSet)
    (h : ExtSet.new.run reqs = .ok (as, s))
    (hv : s.count .type = 0 ∨ s.count .variation ≤ 1) (o : Orders) (ho : o.Of s)
    (loaded : String → Bool) (hload : ∀ a u, s.urns.get a = some u → loaded u = true) :
    ∃ p s', ExtSet.toProto o = .ok p ∧ getExtensionSet loaded (.ofProto p) = .ok s' ∧
      ∀ k a, s'.decode k a = s.decode k a := by
  obtain ⟨p, s', h1, h2, h3, _⟩ :=
    C23_roundtrip_partial s o loaded (C23_fresh_tidy reqs ids hids hl as s h) hv ho hload
  exact ⟨p, s', h1, h2, h3⟩

/-- Writing a set with a type and two type variations panics, whatever the orders. -/
theorem C23_panics (s : ExtSet) (o : Orders) (ho : o.Of s) (h1 : 1 ≤ s.count .type)
    (h2 : 2 ≤ s.count .variation) : ExtSet.toProto o = .panic := by
  refine toProto_panics ?_ ?_
  · intro h
    have := ho.2.1.length_eq
    rw [h] at this
    simp [ExtSet.count, ExtSet.table, GoMap.len] at h1
    simp at this
    omega
  · rw [ho.2.2.1.length_eq]; exact h2

/-- a new set asked for one type and two type variations -/
def exThree : List AnchorReq :=
  [⟨.type, exId "t"⟩, ⟨.variation, exId "v"⟩, ⟨.variation, exId "w"⟩]

theorem run_made : ∀ (rs : List AnchorReq) (s : ExtSet) (as : List UInt32) (s' : ExtSet), s.Made →
    s.run rs = .ok (as, s') → s'.Made
  | [], s, as, s', hs, h => by
    injection h with h
    rw [← (Prod.mk.inj h).2]
    exact hs
  | r :: rs, s, as, s', hs, h => by
    obtain ⟨p, h1, h2⟩ := Res.bind_eq_ok.1 h
    obtain ⟨q, h3, h4⟩ := Res.bind_eq_ok.1 h2
    injection h4 with h4
    rw [← (Prod.mk.inj h4).2]
    exact run_made rs p.2 q.1 q.2 (.ask s p.2 r.kind r.id p.1 hs h1) h3

/-- the entries themselves are an iteration order -/
def ExtSet.orders (s : ExtSet) : Orders :=
  ⟨s.urns.entries, s.types.byId.entries, s.variations.byId.entries, s.funcs.byId.entries⟩

theorem orders_of (s : ExtSet) : s.orders.Of s :=
  ⟨List.Perm.refl _, List.Perm.refl _, List.Perm.refl _, List.Perm.refl _⟩

theorem C23_negation : ¬ C23_statement := by
  intro h
  obtain ⟨s, hs⟩ : ∃ s, ExtSet.new.run exThree = .ok ([1, 1, 2], s) := ⟨_, rfl⟩
  obtain ⟨p, s', h1, _⟩ := h s s.orders (fun _ => true) (run_made _ _ _ _ .new hs) (orders_of s)
    (fun _ _ _ => rfl)
  injection hs with hs
  have e := (Prod.mk.inj hs).2
  subst e
  rw [C23_panics _ _ (orders_of _) (by decide) (by decide)] at h1
  cases h1

/-- a plan that declares the function f twice, with anchors 1 and 2 -/
def exTwice : ExtMsg := ⟨[(1, "extension:o:n")], [some (.func 1 1 "f"), some (.func 1 2 "f")]⟩

/-- Reading a plan with two anchors for one function, writing and reading again loses the first
anchor. -/
theorem C23_negation_duplicate :
    ∃ s p s', getExtensionSet (fun _ => true) exTwice = .ok s ∧ ExtSet.toProto s.orders = .ok p ∧
      getExtensionSet (fun _ => true) (.ofProto p) = .ok s' ∧
      s.decode .func 1 = some (exId "f") ∧ s'.decode .func 1 = none :=
  ⟨_, _, _, rfl, rfl, rfl, rfl, rfl⟩

/-- A new set asked for a type, a variation and two functions meets the hypotheses. -/
example :
    let reqs : List AnchorReq := [⟨.type, exId "t"⟩, ⟨.variation, exId "v"⟩, ⟨.func, exId "f"⟩,
      ⟨.func, exId "g"⟩]
    ∃ s, ExtSet.new.run reqs = .ok ([1, 1, 1, 2], s) ∧ s.count .variation ≤ 1 :=
  ⟨_, rfl, by decide⟩

/-! ## C24 -/

/-- C24 in full: the output does not depend on the iteration orders and is sorted. False: see
`C24_negation`, `C24_negation_order`. -/
def C24_statement : Prop :=
  ∀ s : ExtSet, s.Made → ∃ urns decls, (∀ o : Orders, o.Of s → ExtSet.toProto o = .ok (urns, decls)) ∧
    urns.Pairwise (fun a b => a.1 < b.1) ∧ DeclsSorted decls

/-- C24, missing: sets with a type and two type variations, with a type or type variation and two
functions, and sets read from plans in which anchors and ids do not correspond one to one. For the
others the output does not depend on the iteration orders, URNs and each kind of declaration are
sorted by anchor, and exactly the URNs and ids of the set are declared. -/
theorem C24_order_partial (s : ExtSet) (ht : s.Tidy)
    (hv : s.count .type = 0 ∨ s.count .variation ≤ 1)
    (hf : (s.count .type = 0 ∧ s.count .variation = 0) ∨ s.count .func ≤ 1) :
    ∃ urns decls, (∀ o : Orders, o.Of s → ExtSet.toProto o = .ok (urns, decls)) ∧
      urns.Pairwise (fun a b => a.1 < b.1) ∧ DeclsSorted decls ∧
      (∀ a u, (a, u) ∈ urns ↔ s.urns.get a = some u) ∧
      (∀ d, d ∈ decls ↔ ∃ u, s.urns.get d.urnRef = some u ∧
        s.decode d.kind d.anchor = some ⟨u, d.name⟩) := by
  obtain ⟨urns, ts, vs, fs, _, hu, hus, h1, h1s, h2, h2s, h3, h3s⟩ := toProto_spec ht (orders_of s) hv
  have h3s := h3s hf
  have hui : ∀ a ∈ urns, ∀ b ∈ urns, a.1 = b.1 → a = b := by
    intro a ha b hb h
    have g1 := (GoMap.get_eq_some _ _ _).2 (hu.mem_iff.1 ha)
    have g2 := (GoMap.get_eq_some _ _ _).2 (hu.mem_iff.1 hb)
    rw [h, g2] at g1
    injection g1 with g1
    exact Prod.ext h g1.symm
  have inj : ∀ k, ∀ l : List Decl, l.Perm (s.declsOf k) →
      ∀ a ∈ l, ∀ b ∈ l, a.anchor = b.anchor → a = b :=
    fun k l hp a ha b hb => declsOf_inj ht k a (hp.mem_iff.1 ha) b (hp.mem_iff.1 hb)
  have kind : ∀ k, ∀ l : List Decl, l.Perm (s.declsOf k) → ∀ d ∈ l, d.kind = k :=
    fun k l hp d hd => ((mem_declsOf ht k d).1 (hp.mem_iff.1 hd)).1
  have nd : ∀ k, ∀ l : List Decl, l.Perm (s.declsOf k) → l.Nodup :=
    fun k l hp => hp.nodup_iff.2 (declsOf_nodup ht k)
  refine ⟨urns, ts ++ vs ++ fs, fun o ho => ?_, ?_, ?_, ?_, ?_⟩
  · obtain ⟨urns', ts', vs', fs', e, hu', hus', h1', h1s', h2', h2s', h3', h3s'⟩ :=
      toProto_spec ht ho hv
    rw [e, sorted_unique Prod.fst (hu.trans hu'.symm) hus hus' hui,
      sorted_unique Decl.anchor (h1.trans h1'.symm) h1s h1s' (inj _ _ h1),
      sorted_unique Decl.anchor (h2.trans h2'.symm) h2s h2s' (inj _ _ h2),
      sorted_unique Decl.anchor (h3.trans h3'.symm) h3s (h3s' hf) (inj _ _ h3)]
  · exact pairwise_strict Prod.fst hus (hu.nodup_iff.2 s.urns.nodup.of_map) hui
  · exact ⟨ts, vs, fs, rfl, kind _ _ h1, kind _ _ h2, kind _ _ h3,
      pairwise_strict _ h1s (nd _ _ h1) (inj _ _ h1), pairwise_strict _ h2s (nd _ _ h2) (inj _ _ h2),
      pairwise_strict _ h3s (nd _ _ h3) (inj _ _ h3)⟩
  · intro a u
    rw [hu.mem_iff, ← GoMap.get_eq_some]
  · intro d
    rw [List.mem_append, List.mem_append, h1.mem_iff, h2.mem_iff, h3.mem_iff, mem_declsOf ht,
      mem_declsOf ht, mem_declsOf ht]
    constructor
    · rintro ((⟨hk, h⟩ | ⟨hk, h⟩) | ⟨hk, h⟩) <;> rw [hk] <;> exact h
    · intro h
      cases hk : d.kind <;> rw [hk] at h <;> simp_all

/-- One type and two type variations: writing panics. -/
theorem C24_negation : ¬ C24_statement := by
  intro h
  obtain ⟨s, hs⟩ : ∃ s, ExtSet.new.run exThree = .ok ([1, 1, 2], s) := ⟨_, rfl⟩
  obtain ⟨urns, decls, h1, _⟩ := h s (run_made _ _ _ _ .new hs)
  have h1 := h1 s.orders (orders_of s)
  injection hs with hs
  have e := (Prod.mk.inj hs).2
  subst e
  rw [C23_panics _ _ (orders_of _) (by decide) (by decide)] at h1
  cases h1

/-- One type and two functions: the functions are written in iteration order. -/
theorem C24_negation_order :
    ∃ s o o' p p', ExtSet.new.run [⟨.type, exId "t"⟩, ⟨.func, exId "f"⟩, ⟨.func, exId "g"⟩] =
        .ok ([1, 1, 2], s) ∧ o.Of s ∧ o'.Of s ∧
      ExtSet.toProto o = .ok p ∧ ExtSet.toProto o' = .ok p' ∧
      p.2 = [.type 1 1 "t", .func 1 1 "f", .func 1 2 "g"] ∧
      p'.2 = [.type 1 1 "t", .func 1 2 "g", .func 1 1 "f"] := by
  refine ⟨_, _, ⟨[(1, "extension:o:n")], [(exId "t", 1)], [], [(exId "g", 2), (exId "f", 1)]⟩, _, _,
    rfl, orders_of _, ?_, rfl, rfl, rfl, rfl⟩
  refine ⟨List.Perm.refl _, List.Perm.refl _, List.Perm.refl _, ?_⟩
  exact List.Perm.swap (exId "f", 1) (exId "g", 2) []

/-- Several functions and no types: the hypotheses of `C24_order_partial` are met, and the output is
sorted although the map is iterated the other way round. -/
example :
    ∃ s, ExtSet.new.run [⟨.func, exId "f"⟩, ⟨.func, exId "g"⟩] = .ok ([1, 2], s) ∧
      s.count .type = 0 ∧ s.count .variation = 0 ∧
      ExtSet.toProto ⟨[(1, "extension:o:n")], [], [], [(exId "g", 2), (exId "f", 1)]⟩ =
        .ok ([(1, "extension:o:n")], [.func 1 1 "f", .func 1 2 "g"]) :=
  ⟨_, rfl, rfl, rfl, rfl⟩

/-! ## C60 -/

/-- C60. Reading the extension part of a plan never panics. It succeeds exactly when every
declaration refers to a URN the plan lists and whose file is loaded; then every anchor of every kind
decodes to what the plan declares for it (the last declaration, if there are several), and to nothing
if it declares nothing. -/
theorem C60_decode (loaded : String → Bool) (m : ExtMsg) :
    getExtensionSet loaded m ≠ .panic ∧
    ((∃ s, getExtensionSet loaded m = .ok s) ↔
      ∀ d, some d ∈ m.decls → ∃ u, m.urn d.urnRef = some u ∧ loaded u = true) ∧
    ∀ s, getExtensionSet loaded m = .ok s → ∀ k a, s.decode k a =
      (m.declared k a).bind (fun d => (m.urn d.urnRef).map (fun u => ⟨u, d.name⟩)) := by
  have hu : ∀ a, (readURNs m.urns .empty).get a = m.urn a := by
    intro a
    rw [readURNs_find]
    simp [ExtMsg.urn]
  refine ⟨(readDecls_total loaded _ _).1, ⟨?_, fun h => ?_⟩, fun s h k a => ?_⟩
  · rintro ⟨s, h⟩ d hd
    obtain ⟨u, h1, h2⟩ := (readDecls_ok loaded _ _ _ h).1 d hd
    exact ⟨u, by rw [← hu]; exact h1, h2⟩
  · refine (readDecls_total loaded m.decls _).2 (fun d hd => ?_)
    obtain ⟨u, h1, h2⟩ := h d hd
    exact ⟨u, by rw [← hu] at h1; exact h1, h2⟩
  · rw [(readDecls_ok loaded _ _ _ h).2 k a]
    have : ExtSet.decode { ExtSet.new with urns := readURNs m.urns .empty } k a = none := by
      cases k <;> rfl
    rw [this, Option.or_none]
    simp only [hu]
    rfl

/-- A plan with two functions and an unknown declaration in between; a plan with a dangling
reference. -/
example :
    let m : ExtMsg := ⟨[(7, "extension:o:n")], [some (.func 7 4 "f"), none, some (.func 7 9 "g")]⟩
    (∃ s, getExtensionSet (fun _ => true) m = .ok s ∧ s.decode .func 9 = some (exId "g") ∧
      s.decode .func 4 = some (exId "f") ∧ s.decode .type 4 = none) ∧
    getExtensionSet (fun _ => true) ⟨[(7, "extension:o:n")], [some (.func 8 4 "f")]⟩ = .err :=
  ⟨⟨_, rfl, rfl, rfl, rfl⟩, rfl⟩

end Verif
