import Verif.Spec.Dialect
import Verif.Lemmas.GoMap
import Verif.Lemmas.LocalTypes
/-!
# Lemmas about dialects
-/

namespace Verif

theorem functionsByName_foldl (fs : List RegFn) : ∀ (m : GoMap String (List RegFn)) (n : String),
    ((fs.foldl addFn m).get n).getD [] = (m.get n).getD [] ++ fs.filter (fun f => f.name = n) := by
  induction fs with
  | nil => intro m n; simp
  | cons f fs ih =>
    intro m n
    rw [List.foldl_cons, ih]
    by_cases h : f.name = n
    · subst h
      simp [addFn, GoMap.get_set]
    · simp [addFn, GoMap.get_set, h, Ne.symm h]

theorem functionsByName_eq (fs : List RegFn) (n : String) :
    functionsByName (processFunctions fs) n = fs.filter (fun f => f.name = n) := by
  simp [functionsByName, processFunctions, functionsByName_foldl]

theorem takesCount_iff (f : RegFn) (n : Int) : f.takesCount n = true ↔ f.Takes n := by
  unfold RegFn.takesCount RegFn.Takes
  cases f.variadic with
  | none => simp
  | some v => simp [Variadic.validCount, or_comm]

theorem localizeVariants_spec (infos : ExtId → Option FnInfo) : ∀ (l : List RegFn) (done : List ExtId),
    let r := localizeVariants infos l done
    (∀ x, x ∈ r.2 ↔ x ∈ done ∨ x ∈ r.1.map (·.fn.id)) ∧
    (r.1.map (·.fn.id)).Nodup ∧ (∀ v ∈ r.1, v.fn.id ∉ done) ∧
    (∀ v ∈ r.1, v.fn ∈ l ∧ ∃ i, infos v.fn.id = some i ∧ v = newLocalFn v.fn i) ∧
    (∀ f ∈ l, (infos f.id).isSome → f.id ∈ r.2) := by
  intro l
  induction l with
  | nil => intro done; simp [localizeVariants]
  | cons f fs ih =>
    intro done
    unfold localizeVariants
    by_cases hd : f.id ∈ done
    · rw [if_pos hd]
      obtain ⟨h1, h2, h3, h4, h5⟩ := ih done
      refine ⟨h1, h2, h3, fun v hv => ⟨List.mem_cons_of_mem _ (h4 v hv).1, (h4 v hv).2⟩, ?_⟩
      intro g hg hs
      rcases List.mem_cons.1 hg with rfl | hg
      · exact (h1 _).2 (.inl hd)
      · exact h5 g hg hs
    · rw [if_neg hd]
      cases hi : infos f.id with
      | none =>
        obtain ⟨h1, h2, h3, h4, h5⟩ := ih done
        refine ⟨h1, h2, h3, fun v hv => ⟨List.mem_cons_of_mem _ (h4 v hv).1, (h4 v hv).2⟩, ?_⟩
        intro g hg hs
        rcases List.mem_cons.1 hg with rfl | hg
        · rw [hi] at hs; cases hs
        · exact h5 g hg hs
      | some i =>
        obtain ⟨h1, h2, h3, h4, h5⟩ := ih (f.id :: done)
        refine ⟨?_, ?_, ?_, ?_, ?_⟩
        · intro x
          simp only [h1, List.mem_cons, List.map_cons, newLocalFn]
          tauto
        · simp only [List.map_cons, List.nodup_cons, newLocalFn]
          refine ⟨?_, h2⟩
          intro hm
          obtain ⟨v, hv, he⟩ := List.mem_map.1 hm
          exact h3 v hv (he ▸ List.mem_cons_self)
        · intro v hv
          rcases List.mem_cons.1 hv with rfl | hv
          · exact hd
          · exact fun hm => h3 v hv (List.mem_cons_of_mem _ hm)
        · intro v hv
          rcases List.mem_cons.1 hv with rfl | hv
          · exact ⟨List.mem_cons_self, i, hi, rfl⟩
          · exact ⟨List.mem_cons_of_mem _ (h4 v hv).1, (h4 v hv).2⟩
        · intro g hg hs
          rcases List.mem_cons.1 hg with rfl | hg
          · exact (h1 _).2 (.inl List.mem_cons_self)
          · exact h5 g hg hs

theorem localizeVariants_filter (infos : ExtId → Option FnInfo) : ∀ (l : List RegFn) (done : List ExtId),
    (l.map (·.id)).Nodup →
    (localizeVariants infos l done).1.map (·.fn) =
      l.filter fun f => decide (f.id ∉ done) && (infos f.id).isSome := by
  intro l
  induction l with
  | nil => intro done _; rfl
  | cons f fs ih =>
    intro done hn
    rw [List.map_cons, List.nodup_cons] at hn
    unfold localizeVariants
    by_cases hd : f.id ∈ done
    · rw [if_pos hd, ih done hn.2, List.filter_cons_of_neg (by simp [hd])]
    · rw [if_neg hd]
      cases hi : infos f.id with
      | none => rw [List.filter_cons_of_neg (by simp [hi])]; exact ih done hn.2
      | some i =>
        rw [List.filter_cons_of_pos (by simp [hi, hd])]
        simp only [List.map_cons, newLocalFn, ih (f.id :: done) hn.2]
        congr 1
        refine List.filter_congr fun g hg => ?_
        have : g.id ≠ f.id := fun h => hn.1 (h ▸ List.mem_map_of_mem hg)
        simp [this]

theorem get_addToSliceMap (m : GoMap FnName (List LocalFn)) (k k' : FnName) (vs : List LocalFn) :
    (addToSliceMap m k vs).get k' = if k' = k then some ((m.get k).getD [] ++ vs) else m.get k' := by
  simp only [addToSliceMap, GoMap.get_set]

theorem get_addWithLocalKey (vs : List LocalFn) : ∀ (m : GoMap FnName (List LocalFn)),
    (∀ n, (addWithLocalKey m vs).get (.substrait n) = m.get (.substrait n)) ∧
    (∀ n, ((addWithLocalKey m vs).get (.loc n)).getD [] =
      (m.get (.loc n)).getD [] ++ vs.filter fun v => v.localName = n) ∧
    (∀ n, ((addWithLocalKey m vs).get (.loc n)).isSome ↔
      (m.get (.loc n)).isSome ∨ ∃ v ∈ vs, v.localName = n) := by
  induction vs with
  | nil => intro m; simp [addWithLocalKey]
  | cons v vs ih =>
    intro m
    obtain ⟨h1, h2, h3⟩ := ih (addToSliceMap m (.loc v.localName) [v])
    unfold addWithLocalKey at h1 h2 h3 ⊢
    simp only [List.foldl_cons]
    refine ⟨fun n => ?_, fun n => ?_, fun n => ?_⟩
    · rw [h1]; simp [get_addToSliceMap]
    · rw [h2, get_addToSliceMap]
      by_cases h : v.localName = n
      · subst h; simp
      · simp [h, Ne.symm h]
    · rw [h3, get_addToSliceMap]
      by_cases h : v.localName = n
      · subst h; simp
      · simp [h, Ne.symm h]

/-- what holds of the variables in every iteration -/
structure LocalizeInv (infos : ExtId → Option FnInfo) (fs : List RegFn) (s : LocalizeState) : Prop where
  nodup : (s.slice.map (·.fn.id)).Nodup
  done : ∀ x, x ∈ s.processed ↔ x ∈ s.slice.map (·.fn.id)
  made : ∀ v ∈ s.slice, v.fn ∈ fs ∧ ∃ i, infos v.fn.id = some i ∧ v = newLocalFn v.fn i
  locs : ∀ n, (s.byName.get (.loc n)).getD [] = s.slice.filter fun v => v.localName = n
  subs : ∀ n, (s.byName.get (.substrait n)).getD [] = s.slice.filter fun v => v.fn.name = n
  keys : ∀ n, (s.byName.get (.loc n)).isSome ↔ ∃ v ∈ s.slice, v.localName = n

theorem inv_start (infos : ExtId → Option FnInfo) (fs : List RegFn) :
    LocalizeInv infos fs ⟨[], .empty, []⟩ := by
  constructor <;> simp

theorem inv_step {infos : ExtId → Option FnInfo} {fs : List RegFn} {get : String → List RegFn}
    (hget : ∀ n, get n = fs.filter fun f => f.name = n) {s s' : LocalizeState} {i : FnInfo}
    (h : LocalizeInv infos fs s) (hs : localizeStep infos get s i = .ok s') :
    LocalizeInv infos fs s' ∧ i.id ∈ s'.processed ∧ (∀ x ∈ s.processed, x ∈ s'.processed) := by
  unfold localizeStep at hs
  split at hs
  · split at hs
    · cases hs; exact ⟨h, by assumption, fun _ h => h⟩
    · cases hs
  · obtain ⟨h1, h2, h3, h4, h5⟩ := localizeVariants_spec infos (get i.name) s.processed
    generalize localizeVariants infos (get i.name) s.processed = r at hs h1 h2 h3 h4 h5
    simp only at hs h1 h2 h3 h4 h5
    split at hs
    · cases hs
    · rename_i hp
      have hp : i.id ∈ r.2 := by simpa using hp
      split at hs
      · rename_i he
        cases hs
        refine ⟨⟨h.nodup, fun x => ?_, h.made, h.locs, h.subs, h.keys⟩, hp, fun x hx => (h1 x).2 (.inl hx)⟩
        rw [h1, he, ← h.done]; simp
      · cases hs
        obtain ⟨k1, k2, k3⟩ := get_addWithLocalKey r.1 (addToSliceMap s.byName (.substrait i.name) r.1)
        refine ⟨⟨?_, fun x => ?_, fun v hv => ?_, fun n => ?_, fun n => ?_, fun n => ?_⟩, hp,
          fun x hx => (h1 x).2 (.inl hx)⟩
        · rw [List.map_append, List.nodup_append]
          refine ⟨h.nodup, h2, ?_⟩
          intro a ha b hb hab
          subst hab
          obtain ⟨v, hv, rfl⟩ := List.mem_map.1 hb
          exact h3 v hv ((h.done _).2 ha)
        · rw [h1, h.done, List.map_append, List.mem_append]
        · rcases List.mem_append.1 hv with hv | hv
          · exact h.made v hv
          · have := h4 v hv
            rw [hget] at this
            exact ⟨(List.mem_filter.1 this.1).1, this.2⟩
        · rw [k2, get_addToSliceMap, if_neg (by simp), h.locs, List.filter_append]
        · rw [k1, get_addToSliceMap, List.filter_append, ← h.subs]
          by_cases hn : n = i.name
          · subst hn
            rw [if_pos rfl, List.filter_eq_self.2]
            · rfl
            · intro v hv
              have := (h4 v hv).1
              rw [hget] at this
              simpa using (List.mem_filter.1 this).2
          · rw [if_neg (by simpa using hn), List.filter_eq_nil_iff.2, List.append_nil]
            intro v hv
            have := (h4 v hv).1
            rw [hget] at this
            have := (List.mem_filter.1 this).2
            simp only [decide_eq_true_eq] at this ⊢
            rw [this]; exact fun h => hn h.symm
        · rw [k3, get_addToSliceMap, if_neg (by simp), h.keys]
          constructor
          · rintro (⟨v, hv, he⟩ | ⟨v, hv, he⟩)
            · exact ⟨v, List.mem_append_left _ hv, he⟩
            · exact ⟨v, List.mem_append_right _ hv, he⟩
          · rintro ⟨v, hv, he⟩
            rcases List.mem_append.1 hv with hv | hv
            · exact .inl ⟨v, hv, he⟩
            · exact .inr ⟨v, hv, he⟩

theorem inv_loop {infos : ExtId → Option FnInfo} {fs : List RegFn} {get : String → List RegFn}
    (hget : ∀ n, get n = fs.filter fun f => f.name = n) : ∀ (order : List FnInfo) (s s' : LocalizeState),
    LocalizeInv infos fs s → localizeLoop infos get order s = .ok s' →
    LocalizeInv infos fs s' ∧ (∀ i ∈ order, i.id ∈ s'.processed) ∧ ∀ x ∈ s.processed, x ∈ s'.processed := by
  intro order
  induction order with
  | nil =>
    intro s s' h hs
    cases hs
    exact ⟨h, by simp, fun _ h => h⟩
  | cons i is ih =>
    intro s s' h hs
    unfold localizeLoop at hs
    obtain ⟨t, ht, hs⟩ := Res.bind_eq_ok.1 hs
    obtain ⟨h1, h2, h3⟩ := inv_step hget h ht
    obtain ⟨h4, h5, h6⟩ := ih t s' h1 hs
    refine ⟨h4, ?_, fun x hx => h6 x (h3 x hx)⟩
    intro j hj
    rcases List.mem_cons.1 hj with rfl | hj
    · exact h6 _ h2
    · exact h5 j hj

/-- all variants of a name are made together -/
def Whole (infos : ExtId → Option FnInfo) (fs : List RegFn) (s : LocalizeState) : Prop :=
  ∀ n, (s.slice.filter fun v => v.fn.name = n) = [] ∨
    (s.slice.filter fun v => v.fn.name = n).map (·.fn) =
      fs.filter fun f => decide (f.name = n) && (infos f.id).isSome

theorem eq_of_id {fs : List RegFn} (hn : (fs.map (·.id)).Nodup) {f g : RegFn} (hf : f ∈ fs) (hg : g ∈ fs)
    (h : f.id = g.id) : f = g := by
  induction fs with
  | nil => cases hf
  | cons a as ih =>
    rw [List.map_cons, List.nodup_cons] at hn
    rcases List.mem_cons.1 hf with h1 | h1 <;> rcases List.mem_cons.1 hg with h2 | h2
    · rw [h1, h2]
    · exact absurd (List.mem_map.2 ⟨g, h2, by rw [← h, h1]⟩) hn.1
    · exact absurd (List.mem_map.2 ⟨f, h1, by rw [h, h2]⟩) hn.1
    · exact ih hn.2 h1 h2

theorem whole_step {infos : ExtId → Option FnInfo} {fs : List RegFn} {get : String → List RegFn}
    (hget : ∀ n, get n = fs.filter fun f => f.name = n) (hn : (fs.map (·.id)).Nodup)
    {s s' : LocalizeState} {i : FnInfo} (h : LocalizeInv infos fs s) (hw : Whole infos fs s)
    (hs : localizeStep infos get s i = .ok s') : Whole infos fs s' := by
  unfold localizeStep at hs
  split at hs
  · split at hs
    · cases hs; exact hw
    · cases hs
  · obtain ⟨-, -, -, h4, -⟩ := localizeVariants_spec infos (get i.name) s.processed
    have hfil := localizeVariants_filter infos (get i.name) s.processed
      (by rw [hget]; exact (List.filter_sublist.map _).nodup hn)
    generalize localizeVariants infos (get i.name) s.processed = r at hs h4 hfil
    simp only at hs h4
    split at hs
    · cases hs
    · split at hs
      · cases hs; exact hw
      · cases hs
        intro n
        rw [List.filter_append]
        have hmem : ∀ v ∈ r.1, v.fn.name = i.name := by
          intro v hv
          have := (h4 v hv).1
          rw [hget] at this
          simpa using (List.mem_filter.1 this).2
        by_cases hni : n = i.name
        · subst hni
          have hself : (r.1.filter fun v => v.fn.name = i.name) = r.1 :=
            List.filter_eq_self.2 (by simpa using hmem)
          rw [hself]
          rcases hw i.name with he | he
          · right
            rw [he, List.nil_append, hfil, hget, List.filter_filter]
            refine List.filter_congr fun f hf => ?_
            by_cases hname : f.name = i.name
            · have : f.id ∉ s.processed := by
                rw [h.done]
                intro hm
                obtain ⟨v, hv, hid⟩ := List.mem_map.1 hm
                have hvf := eq_of_id hn (h.made v hv).1 hf hid
                have : v ∈ s.slice.filter fun v => v.fn.name = i.name :=
                  List.mem_filter.2 ⟨hv, by simp [hvf, hname]⟩
                rw [he] at this
                cases this
              simp [hname, this]
            · simp [hname]
          · right
            have : r.1 = [] := by
              rw [← List.map_eq_nil_iff (f := (·.fn)), hfil, List.filter_eq_nil_iff]
              intro f hf
              rw [hget, List.mem_filter] at hf
              simp only [Bool.and_eq_true, decide_eq_true_eq, not_and]
              intro hd hi
              apply hd
              rw [h.done]
              have : f ∈ (s.slice.filter fun v => v.fn.name = i.name).map (·.fn) := by
                rw [he]
                exact List.mem_filter.2 ⟨hf.1, by simp only [hi, Bool.and_true]; exact hf.2⟩
              obtain ⟨v, hv, rfl⟩ := List.mem_map.1 this
              exact List.mem_map.2 ⟨v, (List.mem_filter.1 hv).1, rfl⟩
            rw [this, List.append_nil]
            exact he
        · have hnil : (r.1.filter fun v => v.fn.name = n) = [] := List.filter_eq_nil_iff.2 fun v hv => by
            simp only [decide_eq_true_eq]; rw [hmem v hv]; exact fun h => hni h.symm
          rw [hnil, List.append_nil]
          exact hw n

theorem whole_loop {infos : ExtId → Option FnInfo} {fs : List RegFn} {get : String → List RegFn}
    (hget : ∀ n, get n = fs.filter fun f => f.name = n) (hn : (fs.map (·.id)).Nodup) :
    ∀ (order : List FnInfo) (s s' : LocalizeState),
    LocalizeInv infos fs s → Whole infos fs s → localizeLoop infos get order s = .ok s' →
    Whole infos fs s' := by
  intro order
  induction order with
  | nil => intro s s' _ hw hs; cases hs; exact hw
  | cons i is ih =>
    intro s s' h hw hs
    unfold localizeLoop at hs
    obtain ⟨t, ht, hs⟩ := Res.bind_eq_ok.1 hs
    exact ih t s' (inv_step hget h ht).1 (whole_step hget hn h hw ht) hs

/-- without a clash of names no iteration fails -/
theorem step_ok {infos : ExtId → Option FnInfo} {fs : List RegFn} {get : String → List RegFn}
    (hget : ∀ n, get n = fs.filter fun f => f.name = n)
    {s : LocalizeState} {i : FnInfo} (h : LocalizeInv infos fs s) (hw : Whole infos fs s)
    (hi : infos i.id = some i) (hreg : ∃ f ∈ fs, f.id = i.id)
    (hagree : ∀ f ∈ fs, ∀ j, infos f.id = some j → j.name = f.name)
    (hclash : ∀ x j, infos x = some j → j.localName = i.name → j.name = i.name) :
    ∃ s', localizeStep infos get s i = .ok s' := by
  obtain ⟨f, hf, hid⟩ := hreg
  have hname : i.name = f.name := hagree f hf i (by rw [hid, hi])
  unfold localizeStep
  by_cases hk : (s.byName.get (.loc i.name)).isSome
  · rw [if_pos hk]
    obtain ⟨v, hv, hl⟩ := (h.keys i.name).1 hk
    obtain ⟨hvf, j, hj, hvj⟩ := h.made v hv
    have hjn : j.name = i.name := hclash _ j hj (by rw [← hl, hvj]; rfl)
    have hvn : v.fn.name = i.name := by rw [← hjn, hagree v.fn hvf j hj]
    have : i.id ∈ s.processed := by
      rw [h.done]
      rcases hw i.name with he | he
      · have : v ∈ s.slice.filter fun v => v.fn.name = i.name :=
          List.mem_filter.2 ⟨hv, by simp [hvn]⟩
        rw [he] at this
        cases this
      · have : f ∈ (s.slice.filter fun v => v.fn.name = i.name).map (·.fn) := by
          rw [he]
          exact List.mem_filter.2 ⟨hf, by simp [hname, hid, hi]⟩
        obtain ⟨w, hw, rfl⟩ := List.mem_map.1 this
        rw [← hid]
        exact List.mem_map.2 ⟨w, (List.mem_filter.1 hw).1, rfl⟩
    rw [if_pos this]
    exact ⟨_, rfl⟩
  · rw [if_neg hk]
    have hp : i.id ∈ (localizeVariants infos (get i.name) s.processed).2 := by
      rw [← hid]
      refine (localizeVariants_spec infos (get i.name) s.processed).2.2.2.2 f ?_ (by rw [hid, hi]; rfl)
      rw [hget]
      exact List.mem_filter.2 ⟨hf, by simp [hname]⟩
    simp only
    rw [if_neg (by simpa using hp)]
    split <;> exact ⟨_, rfl⟩

theorem loop_ok {infos : ExtId → Option FnInfo} {fs : List RegFn} {get : String → List RegFn}
    (hget : ∀ n, get n = fs.filter fun f => f.name = n) (hn : (fs.map (·.id)).Nodup)
    (hagree : ∀ f ∈ fs, ∀ j, infos f.id = some j → j.name = f.name) :
    ∀ (order : List FnInfo) (s : LocalizeState), LocalizeInv infos fs s → Whole infos fs s →
    (∀ i ∈ order, infos i.id = some i ∧ (∃ f ∈ fs, f.id = i.id) ∧
      ∀ x j, infos x = some j → j.localName = i.name → j.name = i.name) →
    ∃ s', localizeLoop infos get order s = .ok s' := by
  intro order
  induction order with
  | nil => intro s _ _ _; exact ⟨s, rfl⟩
  | cons i is ih =>
    intro s h hw hall
    obtain ⟨h1, h2, h3⟩ := hall i List.mem_cons_self
    obtain ⟨t, ht⟩ := step_ok hget h hw h1 h2 hagree h3
    obtain ⟨s', hs'⟩ := ih t (inv_step hget h ht).1 (whole_step hget hn h hw ht)
      fun j hj => hall j (List.mem_cons_of_mem _ hj)
    exact ⟨s', by rw [localizeLoop, ht]; exact hs'⟩

theorem makeLocal_ne_panic (infos : GoMap ExtId FnInfo) (order : List FnInfo) (get : String → List RegFn) :
    makeLocal infos order get ≠ .panic := by
  unfold makeLocal
  generalize (⟨[], .empty, []⟩ : LocalizeState) = s
  induction order generalizing s with
  | nil => intro h; cases h
  | cons i is ih =>
    unfold localizeLoop
    refine Res.bind_ne_panic ?_ fun t _ => ih t
    unfold localizeStep
    split
    · split <;> (intro h; cases h)
    · simp only
      split
      · intro h; cases h
      · split <;> (intro h; cases h)

/-! ## Functions by identifier -/

theorem get_variantsById_foldl (l : List (FuncKind × LocalFn)) : ∀ (m : GoMap ExtId (FuncKind × LocalFn)) (x : ExtId),
    (l.foldl (fun m f => m.set f.2.fn.id f) m).get x =
      ((l.filter fun f => f.2.fn.id = x).getLast?).or (m.get x) := by
  induction l with
  | nil => intro m x; simp
  | cons f l ih =>
    intro m x
    rw [List.foldl_cons, ih, GoMap.get_set]
    by_cases h : f.2.fn.id = x
    · subst h
      rw [if_pos rfl, List.filter_cons_of_pos (by simp), List.getLast?_cons]
      cases (l.filter fun g => g.2.fn.id = f.2.fn.id).getLast? <;> rfl
    · simp [h, Ne.symm h]

theorem get_variantsById (l : List (FuncKind × LocalFn)) (x : ExtId) :
    (variantsById l).get x = (l.filter fun f => f.2.fn.id = x).getLast? := by
  simp [variantsById, get_variantsById_foldl]

/-- among functions with distinct identifiers at most one has a given one -/
theorem filter_id_unique {l : List LocalFn} (hn : (l.map (·.fn.id)).Nodup) {f : LocalFn} (hf : f ∈ l) :
    (l.filter fun g => g.fn.id = f.fn.id) = [f] := by
  induction l with
  | nil => cases hf
  | cons a as ih =>
    rw [List.map_cons, List.nodup_cons] at hn
    rcases List.mem_cons.1 hf with h1 | h1
    · subst h1
      rw [List.filter_cons_of_pos (by simp), List.filter_eq_nil_iff.2]
      intro b hb
      simp only [decide_eq_true_eq]
      exact fun h => hn.1 (List.mem_map.2 ⟨b, hb, h⟩)
    · rw [List.filter_cons_of_neg, ih hn.2 h1]
      simp only [decide_eq_true_eq]
      exact fun h => hn.1 (List.mem_map.2 ⟨f, h1, h.symm⟩)

/-- the registry as built: the map by identifier, and distinct identifiers within each kind -/
theorem localizeFunctions_ok {d : Dialect} {typeOrder : List (String × String × Bool)}
    {so ao wo : List FnInfo} {fs fa fw : List RegFn} {r : LocalRegistry}
    (h : localizeFunctions d typeOrder so ao wo (functionsByName (processFunctions fs))
      (functionsByName (processFunctions fa)) (functionsByName (processFunctions fw)) = .ok r) :
    localizeTypes typeOrder = .ok r.types ∧
    makeLocal d.scalars so (functionsByName (processFunctions fs)) = .ok r.scalars ∧
    makeLocal d.aggregates ao (functionsByName (processFunctions fa)) = .ok r.aggregates ∧
    makeLocal d.windows wo (functionsByName (processFunctions fw)) = .ok r.windows ∧
    (∀ k, ((r.ofKind k).map (·.fn.id)).Nodup) ∧
    ∀ x, r.byId.get x = (((r.ofKind .scalar).map (FuncKind.scalar, ·) ++
      (r.ofKind .aggregate).map (FuncKind.aggregate, ·) ++
      (r.ofKind .window).map (FuncKind.window, ·)).filter fun f => f.2.fn.id = x).getLast? := by
  unfold localizeFunctions at h
  obtain ⟨t, ht, h⟩ := Res.bind_eq_ok.1 h
  obtain ⟨s, hs, h⟩ := Res.bind_eq_ok.1 h
  obtain ⟨a, ha, h⟩ := Res.bind_eq_ok.1 h
  obtain ⟨w, hw, h⟩ := Res.bind_eq_ok.1 h
  cases h
  refine ⟨ht, hs, ha, hw, fun k => ?_, fun x => get_variantsById _ x⟩
  cases k
  · exact (inv_loop (functionsByName_eq fs) so _ s (inv_start _ fs) hs).1.nodup
  · exact (inv_loop (functionsByName_eq fa) ao _ a (inv_start _ fa) ha).1.nodup
  · exact (inv_loop (functionsByName_eq fw) wo _ w (inv_start _ fw) hw).1.nodup

/-- the entries of one kind with an identifier -/
theorem filter_kind (l : List LocalFn) (k : FuncKind) (x : ExtId) :
    ((l.map (k, ·)).filter fun f => f.2.fn.id = x) = (l.filter fun f => f.fn.id = x).map (k, ·) := by
  rw [List.filter_map]; rfl

theorem getLast?_append_or {α : Type} (l m : List α) : (l ++ m).getLast? = m.getLast?.or l.getLast? := by
  rw [List.getLast?_append]

/-- the last kind that registers the identifier wins -/
theorem byId_winner {r : LocalRegistry} (hn : ∀ k, ((r.ofKind k).map (·.fn.id)).Nodup)
    (hb : ∀ x, r.byId.get x = (((r.ofKind .scalar).map (FuncKind.scalar, ·) ++
      (r.ofKind .aggregate).map (FuncKind.aggregate, ·) ++
      (r.ofKind .window).map (FuncKind.window, ·)).filter fun f => f.2.fn.id = x).getLast?)
    {k : FuncKind} {f : LocalFn} (hf : f ∈ r.ofKind k)
    (hl : ∀ k', k.rank < k'.rank → ∀ g ∈ r.ofKind k', g.fn.id ≠ f.fn.id) :
    r.byId.get f.fn.id = some (k, f) := by
  have none : ∀ k', k.rank < k'.rank → ((r.ofKind k').filter fun g => g.fn.id = f.fn.id) = [] := fun k' h =>
    List.filter_eq_nil_iff.2 fun g hg => by simpa using hl k' h g hg
  have one := filter_id_unique (hn k) hf
  rw [hb]
  simp only [List.filter_append, filter_kind]
  cases k
  · rw [none .aggregate (by decide), none .window (by decide), one]; simp
  · rw [none .window (by decide), one]; simp
  · rw [one]; simp

theorem byId_absent {r : LocalRegistry}
    (hb : ∀ x, r.byId.get x = (((r.ofKind .scalar).map (FuncKind.scalar, ·) ++
      (r.ofKind .aggregate).map (FuncKind.aggregate, ·) ++
      (r.ofKind .window).map (FuncKind.window, ·)).filter fun f => f.2.fn.id = x).getLast?)
    {x : ExtId} (ha : ∀ k, ∀ g ∈ r.ofKind k, g.fn.id ≠ x) : r.byId.get x = none := by
  have none : ∀ k', ((r.ofKind k').filter fun g => g.fn.id = x) = [] := fun k' =>
    List.filter_eq_nil_iff.2 fun g hg => by simpa using ha k' g hg
  rw [hb]
  simp only [List.filter_append, filter_kind, none]
  rfl

theorem byId_some {r : LocalRegistry}
    (hb : ∀ x, r.byId.get x = (((r.ofKind .scalar).map (FuncKind.scalar, ·) ++
      (r.ofKind .aggregate).map (FuncKind.aggregate, ·) ++
      (r.ofKind .window).map (FuncKind.window, ·)).filter fun f => f.2.fn.id = x).getLast?)
    {x : ExtId} {k : FuncKind} {f : LocalFn} (h : r.byId.get x = some (k, f)) :
    f ∈ r.ofKind k ∧ f.fn.id = x := by
  rw [hb] at h
  have hm := List.mem_of_getLast? h
  rw [List.mem_filter] at hm
  refine ⟨?_, by simpa using hm.2⟩
  have := hm.1
  simp only [List.mem_append, List.mem_map, Prod.mk.injEq] at this
  rcases this with (⟨g, hg, rfl, rfl⟩ | ⟨g, hg, rfl, rfl⟩) | ⟨g, hg, rfl, rfl⟩ <;> exact hg

theorem optionSupported_iff {fold : String → String → Bool} {f : LocalFn}
    (hn : (f.options.map Prod.fst).Nodup) (name value : String) :
    f.optionSupported fold name value = true ↔
      ∃ p ∈ f.options, p.1 = name ∧ ∃ w ∈ p.2, fold w value = true := by
  unfold LocalFn.optionSupported
  generalize f.options = l at hn
  induction l with
  | nil => simp
  | cons q l ih =>
    rw [List.map_cons, List.nodup_cons] at hn
    by_cases h : q.1 = name
    · rw [List.find?_cons_of_pos (by simpa using h)]
      simp only [List.any_eq_true, List.mem_cons, exists_eq_or_imp]
      constructor
      · intro hw; exact .inl ⟨h, hw⟩
      · rintro (⟨-, hw⟩ | ⟨p, hp, he, -⟩)
        · exact hw
        · exact absurd (List.mem_map.2 ⟨p, hp, he.trans h.symm⟩) hn.1
    · rw [List.find?_cons_of_neg (by simpa using h), ih hn.2]
      simp [h]

/-- the tests made before a function is returned -/
theorem byInvocation_found {fold : String → String → Bool} {r : LocalRegistry} {k k' : FuncKind} {f : LocalFn}
    {i : Invocation} (hn : (f.options.map Prod.fst).Nodup) (hg : r.byId.get i.id = some (k', f)) :
    (r.Supports fold f i → r.byInvocation fold k i = if k' = k then .ok f else .panic) ∧
    (¬ r.Supports fold f i → r.byInvocation fold k i = .err) := by
  have ht : ∀ t, (r.types.toLocal t).isOk = true ↔ ∃ s, r.types.toLocal t = .ok s := by
    intro t
    cases r.types.toLocal t <;> simp [Res.isOk]
  unfold LocalRegistry.byInvocation LocalRegistry.Supports
  rw [hg]
  simp only
  by_cases h1 : ∀ t ∈ i.argTypes, ∃ s, r.types.toLocal t = .ok s
  · rw [if_neg (by
      simp only [List.any_eq_true, not_exists, not_and, Bool.not_eq_true', Bool.not_eq_false]
      exact fun t hm => (ht t).2 (h1 t hm))]
    by_cases h2 : ∀ o ∈ i.options, ∀ v ∈ o.2, ∃ p ∈ f.options, p.1 = o.1 ∧ ∃ w ∈ p.2, fold w v = true
    · rw [if_neg (by
        simp only [List.any_eq_true, not_exists, not_and, Bool.not_eq_true', Bool.not_eq_false]
        exact fun o ho v hv => (optionSupported_iff hn _ _).2 (h2 o ho v hv))]
      exact ⟨fun _ => rfl, fun h => absurd ⟨h1, h2⟩ h⟩
    · rw [if_pos (by
        by_contra h
        simp only [List.any_eq_true, not_exists, not_and, Bool.not_eq_true', Bool.not_eq_false] at h
        exact h2 fun o ho v hv => (optionSupported_iff hn _ _).1 (h o ho v hv))]
      exact ⟨fun h => absurd h.2 h2, fun _ => rfl⟩
  · rw [if_pos (by
      by_contra h
      simp only [List.any_eq_true, not_exists, not_and, Bool.not_eq_true', Bool.not_eq_false] at h
      exact h1 fun t hm => (ht t).1 (h t hm))]
    exact ⟨fun h => absurd h.1 h1, fun _ => rfl⟩

end Verif
