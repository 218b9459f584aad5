import Verif.Lemmas.Dialect
import Verif.Lemmas.Aggregate
/-!
# Lemmas about dialect files
-/

namespace Verif

/-! ## Splitting -/

theorem splitChar_ne_nil (c : Char) : ∀ a : List Char, splitChar c a ≠ []
  | [] => by simp [splitChar]
  | x :: xs => by
    unfold splitChar
    split
    · simp
    · split <;> simp

theorem splitChar_append_sep (c : Char) (b : List Char) : ∀ a : List Char,
    splitChar c (a ++ c :: b) = splitChar c a ++ splitChar c b
  | [] => by simp [splitChar]
  | x :: xs => by
    have ih := splitChar_append_sep c b xs
    rw [List.cons_append]
    rw [splitChar, splitChar]
    by_cases h : x = c
    · rw [if_pos h, if_pos h, ih]; rfl
    · rw [if_neg h, if_neg h, ih]
      have := splitChar_ne_nil c xs
      cases hs : splitChar c xs with
      | nil => exact absurd hs this
      | cons p ps => rfl

theorem splitChar_parts (c : Char) : ∀ a : List Char, ∀ p ∈ splitChar c a, c ∉ p
  | [] => by simp [splitChar]
  | x :: xs => by
    have ih := splitChar_parts c xs
    unfold splitChar
    by_cases h : x = c
    · rw [if_pos h]
      intro p hp
      rcases List.mem_cons.1 hp with rfl | hp
      · simp
      · exact ih p hp
    · rw [if_neg h]
      cases hs : splitChar c xs with
      | nil => simp [Ne.symm h]
      | cons q ps =>
        intro p hp
        rw [hs] at ih
        rcases List.mem_cons.1 hp with rfl | hp
        · have := ih q List.mem_cons_self
          simp only [List.mem_cons, not_or]
          exact ⟨Ne.symm h, this⟩
        · exact ih p (List.mem_cons_of_mem _ hp)

theorem intercalate_splitChar (c : Char) : ∀ a : List Char, [c].intercalate (splitChar c a) = a
  | [] => rfl
  | x :: xs => by
    have ih := intercalate_splitChar c xs
    unfold splitChar
    by_cases h : x = c
    · rw [if_pos h]
      cases hs : splitChar c xs with
      | nil => exact absurd hs (splitChar_ne_nil c xs)
      | cons q ps =>
        rw [hs] at ih
        rw [List.intercalate, List.intersperse_cons₂, List.flatten_cons, List.flatten_cons]
        rw [List.intercalate] at ih
        rw [ih, h]; rfl
    · rw [if_neg h]
      cases hs : splitChar c xs with
      | nil => exact absurd hs (splitChar_ne_nil c xs)
      | cons q ps =>
        rw [hs] at ih
        cases ps with
        | nil => simp only [List.intercalate, List.intersperse_single, List.flatten_cons, List.flatten_nil, List.append_nil] at ih ⊢; rw [ih]
        | cons r rs =>
          rw [List.intercalate, List.intersperse_cons₂, List.flatten_cons] at ih ⊢
          rw [List.cons_append, ih]

theorem splitChar_intercalate (c : Char) : ∀ ls : List (List Char), ls ≠ [] →
    splitChar c ([c].intercalate ls) = ls.flatMap (splitChar c)
  | [], h => absurd rfl h
  | [a], _ => by simp [List.intercalate]
  | a :: b :: ls, _ => by
    have ih := splitChar_intercalate c (b :: ls) (by simp)
    rw [List.flatMap_cons, ← ih, ← splitChar_append_sep]
    simp [List.intercalate, List.intersperse_cons₂]

theorem splitString_intercalate (ss : List String) (h : ss ≠ []) :
    splitString '_' ("_".intercalate ss) = ss.flatMap (splitString '_') := by
  unfold splitString
  rw [String.toList_intercalate]
  rw [show "_".toList = ['_'] from rfl, splitChar_intercalate _ _ (by simpa using h), List.map_flatMap,
    List.flatMap_map]

theorem splitString_of_not_mem (c : Char) (s : String) (h : c ∉ s.toList) : splitString c s = [s] := by
  unfold splitString
  rw [splitChar_of_not_mem c _ h]
  simp [String.ofList_toList]

theorem splitString_joined (ss : List String) (h : ss ≠ []) (hs : ∀ s ∈ ss, '_' ∉ s.toList) :
    splitString '_' ("_".intercalate ss) = ss := by
  rw [splitString_intercalate ss h]
  clear h
  induction ss with
  | nil => rfl
  | cons s ss ih =>
    rw [List.flatMap_cons, splitString_of_not_mem _ _ (hs s List.mem_cons_self),
      ih fun t ht => hs t (List.mem_cons_of_mem _ ht)]
    rfl

theorem splitString_parts (c : Char) (s : String) : ∀ p ∈ splitString c s, c ∉ p.toList := by
  intro p hp
  obtain ⟨q, hq, rfl⟩ := List.mem_map.1 hp
  rw [String.toList_ofList]
  exact splitChar_parts c _ q hq

theorem splitString_ne_nil (c : Char) (s : String) : splitString c s ≠ [] := by
  simp [splitString, splitChar_ne_nil]

theorem intercalate_splitString (s : String) : "_".intercalate (splitString '_' s) = s := by
  rw [← String.toList_inj, String.toList_intercalate]
  unfold splitString
  rw [List.map_map]
  have : String.toList ∘ String.ofList = id := by funext x; simp
  rw [this, List.map_id]
  exact intercalate_splitChar '_' s.toList

/-- a name with exactly one dot -/
theorem splitString_two (s a b : String) :
    splitString '.' s = [a, b] ↔ s = a ++ "." ++ b ∧ '.' ∉ a.toList ∧ '.' ∉ b.toList := by
  constructor
  · intro h
    have hp := splitString_parts '.' s
    rw [h] at hp
    refine ⟨?_, hp a (by simp), hp b (by simp)⟩
    have hi := intercalate_splitChar '.' s.toList
    have : splitChar '.' s.toList = [a.toList, b.toList] := by
      have := congrArg (List.map String.toList) h
      unfold splitString at this
      rw [List.map_map] at this
      have hid : String.toList ∘ String.ofList = id := by funext x; simp
      rw [hid, List.map_id] at this
      exact this
    rw [this] at hi
    rw [← String.toList_inj, ← hi]
    simp [List.intercalate, List.intersperse]
  · rintro ⟨rfl, ha, hb⟩
    unfold splitString
    have : (a ++ "." ++ b).toList = a.toList ++ '.' :: b.toList := by simp
    rw [this, splitChar_append _ _ _ ha, splitChar_of_not_mem _ _ hb]
    simp

/-! ## Kernels -/

theorem any_prefix (a : String) : a.toList.take 3 = ['a', 'n', 'y'] ↔ ∃ rest, a = "any" ++ rest := by
  constructor
  · intro h
    refine ⟨String.ofList (a.toList.drop 3), ?_⟩
    rw [← String.toList_inj, String.toList_append]
    have : "any".toList = a.toList.take 3 := by rw [h]; rfl
    rw [this, String.toList_ofList, List.take_append_drop]
  · rintro ⟨rest, rfl⟩
    rw [String.toList_append]
    rfl

theorem fixArgTypes_ok {as bs : List String} :
    fixArgTypes as = .ok bs ↔ (∀ a ∈ as, IsKernelType a) ∧ List.Forall₂ SameKernelType as bs := by
  induction as generalizing bs with
  | nil => simp [fixArgTypes, eq_comm]
  | cons a as ih =>
    unfold fixArgTypes
    by_cases h : a.toList.take 3 = ['a', 'n', 'y']
    · rw [if_pos h]
      have hp := (any_prefix a).1 h
      rw [Res.bind_eq_ok]
      constructor
      · rintro ⟨cs, hc, he⟩
        cases he
        obtain ⟨h1, h2⟩ := ih.1 hc
        refine ⟨?_, .cons (.inl ⟨hp, rfl⟩) h2⟩
        intro x hx
        rcases List.mem_cons.1 hx with rfl | hx
        · exact .inr (.inl hp)
        · exact h1 x hx
      · rintro ⟨h1, h2⟩
        cases h2 with
        | cons hab h2 =>
          rcases hab with ⟨-, rfl⟩ | ⟨hn, -⟩
          · exact ⟨_, ih.2 ⟨fun x hx => h1 x (List.mem_cons_of_mem _ hx), h2⟩, rfl⟩
          · exact absurd hp hn
    · rw [if_neg h]
      have hp : ¬ ∃ rest, a = "any" ++ rest := fun h' => h ((any_prefix a).2 h')
      have hsup : isSupportedType a = true ↔ a ∈ knownTypeNames := known_iff a
      by_cases hs : a ≠ "" ∧ ¬ isSupportedType a
      · rw [if_pos hs]
        constructor
        · intro h; cases h
        · rintro ⟨h1, -⟩
          rcases h1 a List.mem_cons_self with h1 | h1 | h1
          · exact absurd h1 hs.1
          · exact absurd h1 hp
          · exact absurd (hsup.2 h1) hs.2
      · rw [if_neg hs, Res.bind_eq_ok]
        have ha : IsKernelType a := by
          by_cases he : a = ""
          · exact .inl he
          · right; right
            rw [← hsup]
            by_contra hc
            exact hs ⟨he, hc⟩
        constructor
        · rintro ⟨cs, hc, he⟩
          cases he
          obtain ⟨h1, h2⟩ := ih.1 hc
          refine ⟨?_, .cons (.inr ⟨hp, rfl⟩) h2⟩
          intro x hx
          rcases List.mem_cons.1 hx with rfl | hx
          · exact ha
          · exact h1 x hx
        · rintro ⟨h1, h2⟩
          cases h2 with
          | cons hab h2 =>
            rcases hab with ⟨hy, -⟩ | ⟨-, rfl⟩
            · exact absurd hy hp
            · exact ⟨_, ih.2 ⟨fun x hx => h1 x (List.mem_cons_of_mem _ hx), h2⟩, rfl⟩

theorem sameKernelType_plain {a b : String} (h : SameKernelType a b) (ha : '_' ∉ a.toList) : '_' ∉ b.toList := by
  rcases h with ⟨-, rfl⟩ | ⟨-, rfl⟩
  · decide
  · exact ha

theorem fixKernel_ok {k k' : String} :
    fixKernel k = .ok k' ↔ (∀ a ∈ splitString '_' k, IsKernelType a) ∧
      List.Forall₂ SameKernelType (splitString '_' k) (splitString '_' k') := by
  unfold fixKernel
  rw [Res.bind_eq_ok]
  constructor
  · rintro ⟨bs, hb, he⟩
    cases he
    obtain ⟨h1, h2⟩ := fixArgTypes_ok.1 hb
    refine ⟨h1, ?_⟩
    have hne : bs ≠ [] := by
      intro h
      rw [h] at h2
      cases h3 : splitString '_' k with
      | nil => exact splitString_ne_nil _ _ h3
      | cons x xs => rw [h3] at h2; cases h2
    rw [splitString_joined bs hne]
    · exact h2
    · intro b hb
      obtain ⟨a, ha, hab⟩ := forall₂_mem_right h2 hb
      exact sameKernelType_plain hab (splitString_parts '_' k a ha)
  · rintro ⟨h1, h2⟩
    exact ⟨_, fixArgTypes_ok.2 ⟨h1, h2⟩, by rw [intercalate_splitString]⟩

theorem fixKernel_total {k : String} (h : ∀ a ∈ splitString '_' k, IsKernelType a) :
    ∃ k', fixKernel k = .ok k' := by
  unfold fixKernel
  have : ∀ as : List String, (∀ a ∈ as, IsKernelType a) → ∃ bs, List.Forall₂ SameKernelType as bs := by
    intro as
    induction as with
    | nil => exact fun _ => ⟨[], .nil⟩
    | cons a as ih =>
      intro h
      obtain ⟨bs, hb⟩ := ih fun x hx => h x (List.mem_cons_of_mem _ hx)
      by_cases hp : ∃ rest, a = "any" ++ rest
      · exact ⟨_, .cons (.inl ⟨hp, rfl⟩) hb⟩
      · exact ⟨_, .cons (.inr ⟨hp, rfl⟩) hb⟩
  obtain ⟨bs, hb⟩ := this _ h
  rw [fixArgTypes_ok.2 ⟨h, hb⟩]
  exact ⟨_, rfl⟩

theorem fixKernel_ne_panic (k : String) : fixKernel k ≠ .panic := by
  unfold fixKernel
  refine Res.bind_ne_panic ?_ fun _ _ => by simp
  generalize splitString '_' k = as
  induction as with
  | nil => simp [fixArgTypes]
  | cons a as ih =>
    unfold fixArgTypes
    split
    · exact Res.bind_ne_panic ih fun _ _ => by simp
    · split
      · simp
      · exact Res.bind_ne_panic ih fun _ _ => by simp

/-! ## The file -/

theorem dependency_iff {d : DialectFile} (hn : (d.dependencies.map Prod.fst).Nodup) (k urn : String) :
    d.dependency k = some urn ↔ (k, urn) ∈ d.dependencies := by
  exact GoMap.get_eq_some ⟨d.dependencies, hn⟩ k urn

theorem validateFunction_ok {d : DialectFile} (hn : (d.dependencies.map Prod.fst).Nodup) {f g : DialectFn} :
    d.validateFunction f = .ok g ↔ d.Proper f ∧ g = { f with kernels := g.kernels } ∧
      List.Forall₂ (fun k k' => fixKernel k = .ok k') f.kernels g.kernels := by
  unfold DialectFile.validateFunction DialectFile.Proper
  by_cases h0 : f.name = "" ∨ f.kernels = []
  · rw [if_pos h0]
    constructor
    · intro h; cases h
    · rintro ⟨⟨⟨urn, fn, a, ha, -⟩, hk, -⟩, -⟩
      rcases h0 with h0 | h0
      · rw [h0] at ha
        have := congrArg String.toList ha
        simp at this
      · exact absurd h0 hk
  · rw [if_neg h0]
    rw [not_or] at h0
    split
    · rename_i dep fn hsp
      obtain ⟨hname, h1, h2⟩ := (splitString_two _ _ _).1 hsp
      by_cases hd : (d.dependency dep).isNone
      · rw [if_pos hd]
        constructor
        · intro h; cases h
        · rintro ⟨⟨⟨urn, fn', a, ha, h1', h2', hm⟩, -⟩, -⟩
          have := (splitString_two f.name a fn').2 ⟨ha, h1', h2'⟩
          rw [hsp] at this
          cases this
          rw [(dependency_iff hn _ _).2 hm] at hd
          cases hd
      · rw [if_neg hd, Res.bind_eq_ok]
        obtain ⟨urn, hu⟩ := Option.isSome_iff_exists.1 (by cases h : d.dependency dep <;> simp_all : (d.dependency dep).isSome)
        constructor
        · rintro ⟨ks, hks, he⟩
          cases he
          have hf := mapL_forall₂.1 hks
          refine ⟨⟨⟨urn, fn, dep, hname, h1, h2, (dependency_iff hn _ _).1 hu⟩, h0.2, ?_⟩, rfl, hf⟩
          intro k hk a ha
          obtain ⟨k', -, hk'⟩ := forall₂_mem_left hf hk
          exact (fixKernel_ok.1 hk').1 a ha
        · rintro ⟨-, hg, hf⟩
          exact ⟨_, mapL_forall₂.2 hf, by rw [← hg]⟩
    · rename_i hsp
      constructor
      · intro h; cases h
      · rintro ⟨⟨⟨urn, fn', a, ha, h1', h2', hm⟩, -⟩, -⟩
        exact absurd ((splitString_two f.name a fn').2 ⟨ha, h1', h2'⟩) (hsp _ _)

theorem validateFunction_total {d : DialectFile} (hn : (d.dependencies.map Prod.fst).Nodup) {f : DialectFn}
    (h : d.Proper f) : ∃ g, d.validateFunction f = .ok g := by
  obtain ⟨ks, hks⟩ := mapL_total (f := fixKernel) (l := f.kernels) fun k hk => fixKernel_total (h.2.2 k hk)
  exact ⟨{ f with kernels := ks }, (validateFunction_ok hn).2 ⟨h, rfl, mapL_forall₂.1 hks⟩⟩

theorem validateFunction_ne_panic (d : DialectFile) (f : DialectFn) : d.validateFunction f ≠ .panic := by
  unfold DialectFile.validateFunction
  split
  · simp
  · split
    · split
      · simp
      · exact Res.bind_ne_panic (mapL_ne_panic _ _ fixKernel_ne_panic) fun _ _ => by simp
    · simp

/-- the entries made of valid functions -/
theorem infos_ok {d d' : DialectFile} (hn : (d.dependencies.map Prod.fst).Nodup)
    (hdep : d'.dependencies = d.dependencies) : ∀ {fs gs : List DialectFn},
    List.Forall₂ (fun f g => d.validateFunction f = .ok g) fs gs →
    ∃ is, d'.infos gs = .ok is ∧
      (∀ i ∈ is, ∃ f ∈ fs, ∃ k ∈ f.kernels, d.Describes f k i) ∧
      (∀ f ∈ fs, ∀ k ∈ f.kernels, ∃ i ∈ is, d.Describes f k i) := by
  intro fs gs h
  induction h with
  | nil => exact ⟨[], rfl, by simp, by simp⟩
  | @cons f g fs gs hfg _ ih =>
    obtain ⟨is, hi, h1, h2⟩ := ih
    obtain ⟨⟨⟨urn, fn, dep, ha, ha1, ha2, hm⟩, hk, -⟩, hg, hks⟩ := (validateFunction_ok hn).1 hfg
    clear hk
    have hu : d'.urnAndName g = .ok (urn, fn) := by
      unfold DialectFile.urnAndName
      have hgn : g.name = f.name := by rw [hg]
      rw [hgn, (splitString_two f.name dep fn).2 ⟨ha, ha1, ha2⟩]
      have : d'.dependency dep = some urn := by
        rw [← (dependency_iff hn _ _)] at hm
        rw [← hm]
        unfold DialectFile.dependency
        rw [hdep]
      simp only [this, Option.getD_some]
    have hdesc : ∀ k k', fixKernel k = .ok k' → d.Describes f k (g.info urn fn k') := by
      intro k k' hkk
      have hl : g.localName = f.localName := by rw [hg]
      have ho : g.requiredOptions = f.requiredOptions := by rw [hg]
      have hin : g.isInfix = f.isInfix := by rw [hg]
      have hpo : g.isPostfix = f.isPostfix := by rw [hg]
      refine ⟨urn, fn, k', ⟨dep, ha, ha1, ha2, hm⟩, (fixKernel_ok.1 hkk).2, rfl, rfl, ?_, ?_, ?_, ?_, ?_, ?_⟩
      · intro he; simp [DialectFn.info, hl, he]
      · intro he; simp [DialectFn.info, hl, he]
      · simp only [DialectFn.info, ho]
      · intro he; simp [DialectFn.info, DialectFn.getNotation, hin, he]
      · intro he he'; simp [DialectFn.info, DialectFn.getNotation, hin, hpo, he, he']
      · intro he he'; simp [DialectFn.info, DialectFn.getNotation, hin, hpo, he, he']
    refine ⟨g.kernels.map (g.info urn fn) ++ is, ?_, ?_, ?_⟩
    · unfold DialectFile.infos
      rw [hu, hi]; rfl
    · intro i hi
      rcases List.mem_append.1 hi with hi | hi
      · obtain ⟨k', hk', rfl⟩ := List.mem_map.1 hi
        obtain ⟨k, hk, hkk⟩ := forall₂_mem_right hks hk'
        exact ⟨f, List.mem_cons_self, k, hk, hdesc k k' hkk⟩
      · obtain ⟨f', hf', h⟩ := h1 i hi
        exact ⟨f', List.mem_cons_of_mem _ hf', h⟩
    · intro f' hf' k hk
      rcases List.mem_cons.1 hf' with rfl | hf'
      · obtain ⟨k', hk', hkk⟩ := forall₂_mem_left hks hk
        exact ⟨_, List.mem_append_left _ (List.mem_map_of_mem hk'), hdesc k k' hkk⟩
      · obtain ⟨i, hi, h⟩ := h2 f' hf' k hk
        exact ⟨i, List.mem_append_right _ hi, h⟩

theorem get_infoMap_foldl (is : List FnInfo) : ∀ (m : GoMap ExtId FnInfo),
    (∀ x i, m.get x = some i → i.id = x) →
    (∀ x i, (is.foldl (fun m i => m.set i.id i) m).get x = some i → i.id = x ∧ (i ∈ is ∨ m.get x = some i)) ∧
    (∀ x, (∃ i ∈ is, i.id = x) ∨ (m.get x).isSome → ((is.foldl (fun m i => m.set i.id i) m).get x).isSome) := by
  induction is with
  | nil => intro m hm; exact ⟨fun x i h => ⟨hm x i h, .inr h⟩, fun x h => by simpa using h⟩
  | cons i is ih =>
    intro m hm
    have hm' : ∀ x j, (m.set i.id i).get x = some j → j.id = x := by
      intro x j h
      rw [GoMap.get_set] at h
      split at h
      · cases h; symm; assumption
      · exact hm x j h
    obtain ⟨h1, h2⟩ := ih (m.set i.id i) hm'
    rw [List.foldl_cons]
    refine ⟨fun x j h => ?_, fun x h => ?_⟩
    · obtain ⟨he, h⟩ := h1 x j h
      refine ⟨he, ?_⟩
      rcases h with h | h
      · exact .inl (List.mem_cons_of_mem _ h)
      · rw [GoMap.get_set] at h
        split at h
        · cases h; exact .inl List.mem_cons_self
        · exact .inr h
    · apply h2
      rw [GoMap.get_set]
      by_cases hx : x = i.id
      · right; rw [if_pos hx]; rfl
      · rw [if_neg hx]
        rcases h with ⟨j, hj, he⟩ | h
        · rcases List.mem_cons.1 hj with rfl | hj
          · exact absurd he.symm hx
          · exact .inl ⟨j, hj, he⟩
        · exact .inr h

theorem infoMap_ok {d d' : DialectFile} (hn : (d.dependencies.map Prod.fst).Nodup)
    (hdep : d'.dependencies = d.dependencies) {fs gs : List DialectFn}
    (h : Res.mapL d.validateFunction fs = .ok gs) :
    ∃ D, d'.infoMap gs = .ok D ∧ d.Holds fs D := by
  obtain ⟨is, hi, h1, h2⟩ := infos_ok hn hdep (mapL_forall₂.1 h)
  obtain ⟨k1, k2⟩ := get_infoMap_foldl is .empty (by simp)
  refine ⟨_, by unfold DialectFile.infoMap; rw [hi]; rfl, ?_, ?_, ?_⟩
  · intro p hp
    exact (k1 _ _ ((GoMap.get_eq_some _ _ _).2 hp)).1
  · intro p hp
    rcases (k1 _ _ ((GoMap.get_eq_some _ _ _).2 hp)).2 with h | h
    · exact h1 _ h
    · simp at h
  · intro f hf k hk
    obtain ⟨i, hi, hd⟩ := h2 f hf k hk
    obtain ⟨j, hj⟩ := Option.isSome_iff_exists.1 (k2 i.id (.inl ⟨i, hi, rfl⟩))
    exact ⟨i, hd, j, (GoMap.get_eq_some _ _ _).1 hj⟩

end Verif
