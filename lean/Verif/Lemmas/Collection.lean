import Verif.Spec.Collection
import Verif.Lemmas.GoMap
import Verif.Lemmas.Variants
/-!
# Lemmas about collections
-/

namespace Verif

/-! ## Regular expressions -/

/-- the texts matched by an expression -/
inductive Rx.Lang : Rx → List Char → Prop where
  | eps : Lang .eps []
  | cls : p c = true → Lang (.cls p) [c]
  | altL : Lang a s → Lang (.alt a b) s
  | altR : Lang b s → Lang (.alt a b) s
  | seq : Lang a s → Lang b t → Lang (.seq a b) (s ++ t)
  | starNil : Lang (.star a) []
  | starCons : Lang a s → Lang (.star a) t → Lang (.star a) (s ++ t)

namespace Rx

theorem nullable_iff (a : Rx) : a.nullable = true ↔ a.Lang [] := by
  induction a with
  | none => simp [nullable]; intro h; cases h
  | eps => simp [nullable]; exact .eps
  | cls p => simp [nullable]; intro h; cases h
  | alt a b iha ihb =>
    simp only [nullable, Bool.or_eq_true, iha, ihb]
    constructor
    · rintro (h | h)
      · exact .altL h
      · exact .altR h
    · intro h
      cases h with
      | altL h => exact .inl h
      | altR h => exact .inr h
  | seq a b iha ihb =>
    simp only [nullable, Bool.and_eq_true, iha, ihb]
    constructor
    · rintro ⟨h, h'⟩
      exact .seq h h'
    · intro h
      generalize e : ([] : List Char) = l at h
      cases h with
      | seq h h' =>
        obtain ⟨rfl, rfl⟩ := List.append_eq_nil_iff.1 e.symm
        exact ⟨h, h'⟩
  | star a _ => simp [nullable]; exact .starNil

theorem star_cons {a : Rx} {l : List Char} (h : (Rx.star a).Lang l) :
    ∀ c cs, l = c :: cs → ∃ s t, cs = s ++ t ∧ a.Lang (c :: s) ∧ (Rx.star a).Lang t := by
  generalize e : Rx.star a = r at h
  induction h with
  | starNil => intro c cs h; cases h
  | @starCons a' s t h1 h2 _ ih =>
    cases e
    intro c cs hl
    cases s with
    | nil => exact ih rfl c cs (by simpa using hl)
    | cons d s =>
      simp only [List.cons_append, List.cons.injEq] at hl
      obtain ⟨rfl, rfl⟩ := hl
      exact ⟨s, t, rfl, h1, h2⟩
  | eps | cls | altL | altR | seq => cases e

theorem deriv_iff (a : Rx) (c : Char) (cs : List Char) :
    (a.deriv c).Lang cs ↔ a.Lang (c :: cs) := by
  induction a generalizing cs with
  | none => simp only [deriv]; constructor <;> intro h <;> cases h
  | eps => simp only [deriv]; constructor <;> intro h <;> cases h
  | cls p =>
    simp only [deriv]
    split
    · constructor
      · intro h; cases h; exact .cls (by assumption)
      · intro h; cases h; exact .eps
    · constructor
      · intro h; cases h
      · intro h; cases h; simp_all
  | alt a b iha ihb =>
    simp only [deriv]
    constructor
    · intro h
      cases h with
      | altL h => exact .altL ((iha _).1 h)
      | altR h => exact .altR ((ihb _).1 h)
    · intro h
      cases h with
      | altL h => exact .altL ((iha _).2 h)
      | altR h => exact .altR ((ihb _).2 h)
  | seq a b iha ihb =>
    have fwd : (Rx.seq (a.deriv c) b).Lang cs → (Rx.seq a b).Lang (c :: cs) := by
      intro h
      cases h with
      | seq h h' => exact Lang.seq ((iha _).1 h) h'
    have bwd : (Rx.seq a b).Lang (c :: cs) →
        (Rx.seq (a.deriv c) b).Lang cs ∨ (a.Lang [] ∧ b.Lang (c :: cs)) := by
      intro h
      generalize e : c :: cs = l at h
      cases h with
      | @seq _ s _ t h h' =>
        cases s with
        | nil => exact .inr ⟨h, by simpa using h'⟩
        | cons d s =>
          simp only [List.cons_append, List.cons.injEq] at e
          obtain ⟨rfl, rfl⟩ := e
          exact .inl (.seq ((iha _).2 h) h')
    simp only [deriv]
    split
    · rename_i hn
      rw [nullable_iff] at hn
      constructor
      · intro h
        cases h with
        | altL h => exact fwd h
        | altR h => exact Lang.seq (s := []) hn ((ihb _).1 h)
      · intro h
        rcases bwd h with h | ⟨_, h⟩
        · exact .altL h
        · exact .altR ((ihb _).2 h)
    · rename_i hn
      rw [nullable_iff] at hn
      constructor
      · exact fwd
      · intro h
        rcases bwd h with h | ⟨h, _⟩
        · exact h
        · exact absurd h hn
  | star a ih =>
    simp only [deriv]
    constructor
    · intro h
      cases h with
      | seq h h' => exact Lang.starCons ((ih _).1 h) h'
    · intro h
      obtain ⟨s, t, rfl, h1, h2⟩ := star_cons h c cs rfl
      exact .seq ((ih _).2 h1) h2

theorem matches_iff (a : Rx) (cs : List Char) : a.matches cs = true ↔ a.Lang cs := by
  induction cs generalizing a with
  | nil => exact nullable_iff a
  | cons c cs ih => rw [Rx.matches, ih, deriv_iff]

theorem lang_seq {a b : Rx} {l : List Char} :
    (Rx.seq a b).Lang l ↔ ∃ s t, l = s ++ t ∧ a.Lang s ∧ b.Lang t := by
  constructor
  · intro h
    cases h with
    | @seq _ s _ t h h' => exact ⟨s, t, rfl, h, h'⟩
  · rintro ⟨s, t, rfl, h, h'⟩
    exact .seq h h'

theorem lang_cls {p : Char → Bool} {l : List Char} :
    (Rx.cls p).Lang l ↔ ∃ c, l = [c] ∧ p c = true := by
  constructor
  · intro h
    cases h with
    | cls h => exact ⟨_, rfl, h⟩
  · rintro ⟨c, rfl, h⟩
    exact .cls h

theorem lang_lit (t l : List Char) : (Rx.lit t).Lang l ↔ l = t := by
  induction t generalizing l with
  | nil =>
    constructor
    · intro h; cases h; rfl
    · rintro rfl; exact .eps
  | cons c t ih =>
    rw [Rx.lit, lang_seq]
    constructor
    · rintro ⟨s, u, rfl, h1, h2⟩
      obtain ⟨d, rfl, hd⟩ := lang_cls.1 h1
      rw [(ih u).1 h2, eq_of_beq hd]
      rfl
    · rintro rfl
      exact ⟨[c], t, rfl, .cls (by simp), (ih t).2 rfl⟩

theorem lang_star_cls {p : Char → Bool} (l : List Char) :
    (Rx.star (.cls p)).Lang l ↔ ∀ c ∈ l, p c = true := by
  constructor
  · intro h
    generalize e : Rx.star (.cls p) = r at h
    induction h with
    | starNil => simp
    | starCons h1 h2 _ ih =>
      cases e
      obtain ⟨d, rfl, hd⟩ := lang_cls.1 h1
      intro c hc
      rcases List.mem_cons.1 (by simpa using hc) with rfl | hc
      · exact hd
      · exact ih rfl c hc
    | eps | cls | altL | altR | seq => cases e
  · induction l with
    | nil => intro _; exact .starNil
    | cons c l ih =>
      intro h
      exact Lang.starCons (s := [c]) (.cls (h c (by simp))) (ih fun d hd => h d (by simp [hd]))

theorem lang_plus_cls {p : Char → Bool} (l : List Char) :
    (Rx.plus (.cls p)).Lang l ↔ l ≠ [] ∧ ∀ c ∈ l, p c = true := by
  rw [Rx.plus, lang_seq]
  constructor
  · rintro ⟨s, t, rfl, h1, h2⟩
    obtain ⟨d, rfl, hd⟩ := lang_cls.1 h1
    refine ⟨by simp, fun c hc => ?_⟩
    rcases List.mem_cons.1 (by simpa using hc) with rfl | hc
    · exact hd
    · exact (lang_star_cls t).1 h2 c hc
  · rintro ⟨hne, h⟩
    cases l with
    | nil => exact absurd rfl hne
    | cons c l =>
      exact ⟨[c], l, rfl, .cls (h c (by simp)),
        (lang_star_cls l).2 fun d hd => h d (by simp [hd])⟩

end Rx

theorem validateUrn_iff (s : String) : validateUrn s = true ↔ IsUrn s := by
  rw [validateUrn, Rx.matches_iff, urnPattern, Rx.lang_seq]
  simp only [Rx.lang_seq, Rx.lang_lit, Rx.lang_plus_cls, Rx.lang_cls]
  constructor
  · rintro ⟨_, t, hs, rfl, owner, u, rfl, ⟨ho, hoc⟩, _, name, rfl, ⟨c, rfl, hc⟩, hn, hnc⟩
    refine ⟨owner, name, ?_, ho, hn, fun h => by simpa using hoc _ h, fun h => by simpa using hnc _ h⟩
    rw [hs, eq_of_beq hc]
    simp only [List.append_assoc]
  · rintro ⟨owner, name, hs, ho, hn, hoc, hnc⟩
    refine ⟨_, owner ++ ([':'] ++ name), by rw [hs]; simp only [List.append_assoc], rfl, owner, _, rfl,
      ⟨ho, fun c hc => ?_⟩, [':'], name, rfl, ⟨':', rfl, by simp⟩, hn, fun c hc => ?_⟩
    · simp only [bne_iff_ne, ne_eq]; rintro rfl; exact hoc hc
    · simp only [bne_iff_ne, ne_eq]; rintro rfl; exact hnc hc

theorem letterClass_iff (c : Char) :
    (letterClass c || c == '_' || c == '$') = true ↔ IsIdStart c := by
  simp [letterClass, IsIdStart, or_assoc]

theorem validateAlias_iff (s : String) : validateDependencyAlias s = true ↔ IsIdentifier s := by
  rw [validateDependencyAlias, Rx.matches_iff, dependencyAliasPattern, Rx.lang_seq]
  simp only [Rx.lang_cls, Rx.lang_star_cls]
  have key : ∀ d : Char, (letterClass d || ('0' ≤ d && d ≤ '9') || d == '_' || d == '$') = true ↔
      IsIdStart d ∨ ('0' ≤ d ∧ d ≤ '9') := by
    intro d
    rw [← letterClass_iff]
    simp only [Bool.or_eq_true, Bool.and_eq_true, decide_eq_true_eq]
    tauto
  constructor
  · rintro ⟨_, t, hs, ⟨c, rfl, hc⟩, ht⟩
    exact ⟨c, t, by simpa using hs, (letterClass_iff c).1 hc, fun d hd => (key d).1 (ht d hd)⟩
  · rintro ⟨c, cs, hs, hc, hcs⟩
    exact ⟨[c], cs, by simpa using hs, ⟨c, rfl, (letterClass_iff c).2 hc⟩,
      fun d hd => (key d).2 (hcs d hd)⟩

/-! ## Mentioned types -/

mutual
theorem mem_userTypes (n : String) : ∀ t : FTy, n ∈ t.userTypes ↔ t.Mentions n
  | .udt nl v m ps => by
    rw [FTy.userTypes, List.mem_cons, mem_userTypesParams n ps]
    constructor
    · rintro (rfl | ⟨t, ht, hm⟩)
      · exact .here
      · exact .param ht hm
    · intro h
      cases h with
      | here => exact .inl rfl
      | param h h' => exact .inr ⟨_, h, h'⟩
  | .list _ t => by
    rw [FTy.userTypes, mem_userTypes n t]
    exact ⟨.list, fun h => by cases h; assumption⟩
  | .map _ k v => by
    rw [FTy.userTypes, List.mem_append, mem_userTypes n k, mem_userTypes n v]
    constructor
    · rintro (h | h)
      · exact .key h
      · exact .value h
    · intro h
      cases h with
      | key h => exact .inl h
      | value h => exact .inr h
  | .struct _ ts => by
    rw [FTy.userTypes, mem_userTypesList n ts]
    constructor
    · rintro ⟨t, h, h'⟩; exact .field h h'
    · intro h; cases h with | field h h' => exact ⟨_, h, h'⟩
  | .func _ ps r => by
    rw [FTy.userTypes, List.mem_append, mem_userTypesList n ps, mem_userTypes n r]
    constructor
    · rintro (⟨t, h, h'⟩ | h)
      · exact .funcParam h h'
      · exact .funcReturn h
    · intro h
      cases h with
      | funcParam h h' => exact .inl ⟨_, h, h'⟩
      | funcReturn h => exact .inr h
  | .derivation _ f => by
    rw [FTy.userTypes, mem_userTypes n f]
    exact ⟨.final, fun h => by cases h; assumption⟩
  | .prim .. => by simp only [FTy.userTypes, List.not_mem_nil, false_iff]; intro h; cases h
  | .any .. => by simp only [FTy.userTypes, List.not_mem_nil, false_iff]; intro h; cases h
  | .enum .. => by simp only [FTy.userTypes, List.not_mem_nil, false_iff]; intro h; cases h
  | .single .. => by simp only [FTy.userTypes, List.not_mem_nil, false_iff]; intro h; cases h
  | .decimal .. => by simp only [FTy.userTypes, List.not_mem_nil, false_iff]; intro h; cases h
theorem mem_userTypesList (n : String) : ∀ ts : List FTy,
    n ∈ FTy.userTypesList ts ↔ ∃ t ∈ ts, t.Mentions n
  | [] => by simp [FTy.userTypesList]
  | t :: ts => by
    rw [FTy.userTypesList, List.mem_append, mem_userTypes n t, mem_userTypesList n ts]
    simp
theorem mem_userTypesParams (n : String) : ∀ ps : List FParam,
    n ∈ FParam.userTypesList ps ↔ ∃ t, .dataType t ∈ ps ∧ t.Mentions n
  | [] => by simp [FParam.userTypesList]
  | .dataType t :: ps => by
    rw [FParam.userTypesList, List.mem_append, mem_userTypes n t, mem_userTypesParams n ps]
    constructor
    · rintro (h | ⟨u, hu, h⟩)
      · exact ⟨t, by simp, h⟩
      · exact ⟨u, by simp [hu], h⟩
    · rintro ⟨u, hu, h⟩
      rcases List.mem_cons.1 hu with e | hu
      · cases e; exact .inl h
      · exact .inr ⟨u, hu, h⟩
  | .integer _ :: ps => by
    simp [FParam.userTypesList, mem_userTypesParams n ps]
  | .string _ :: ps => by
    simp [FParam.userTypesList, mem_userTypesParams n ps]
end

theorem mapL_ok_mem {α β : Type} {f : α → Res β} : ∀ {l : List α} {r : List β}, Res.mapL f l = .ok r →
    ∀ b, b ∈ r ↔ ∃ a ∈ l, f a = .ok b := by
  intro l
  induction l with
  | nil => intro r h b; simp only [Res.mapL, Res.ok.injEq] at h; subst h; simp
  | cons a l ih =>
    intro r h b
    simp only [Res.mapL, Res.bind_eq_ok] at h
    obtain ⟨x, hx, xs, hxs, h⟩ := h
    cases h
    simp only [List.mem_cons, ih hxs b, exists_eq_or_imp, hx, Res.ok.injEq]
    constructor
    · rintro (rfl | h)
      · exact .inl rfl
      · exact .inr h
    · rintro (rfl | h)
      · exact .inl rfl
      · exact .inr h

theorem mapL_ok_all {α β : Type} {f : α → Res β} : ∀ {l : List α} {r : List β}, Res.mapL f l = .ok r →
    ∀ a ∈ l, ∃ b, f a = .ok b := by
  intro l
  induction l with
  | nil => simp
  | cons a l ih =>
    intro r h x hx
    simp only [Res.mapL, Res.bind_eq_ok] at h
    obtain ⟨y, hy, ys, hys, _⟩ := h
    rcases List.mem_cons.1 hx with rfl | hx
    · exact ⟨y, hy⟩
    · exact ih hys x hx

theorem mapL_total {α β : Type} {f : α → Res β} : ∀ {l : List α}, (∀ a ∈ l, ∃ b, f a = .ok b) →
    ∃ r, Res.mapL f l = .ok r := by
  intro l
  induction l with
  | nil => intro _; exact ⟨[], rfl⟩
  | cons a l ih =>
    intro h
    obtain ⟨b, hb⟩ := h a (by simp)
    obtain ⟨r, hr⟩ := ih fun x hx => h x (by simp [hx])
    exact ⟨b :: r, by simp [Res.mapL, hb, hr]⟩

theorem typeExpression_mentions {p : FuncParam} {t : FTy} (h : p.typeExpression = .ok t) (n : String) :
    t.Mentions n ↔ ∃ u, (p = .value u ∨ p = .type u) ∧ u.Mentions n := by
  cases p with
  | enum a b =>
    simp only [FuncParam.typeExpression, Res.ok.injEq] at h
    subst h
    constructor
    · intro h; cases h
    · rintro ⟨u, h | h, _⟩ <;> cases h
  | value u =>
    simp only [FuncParam.typeExpression, Res.ok.injEq] at h
    subst h
    constructor
    · intro h; exact ⟨_, .inl rfl, h⟩
    · rintro ⟨u, h | h, h'⟩ <;> cases h
      exact h'
  | type u =>
    simp only [FuncParam.typeExpression, Res.ok.injEq] at h
    subst h
    constructor
    · intro h; exact ⟨_, .inr rfl, h⟩
    · rintro ⟨u, h | h, h'⟩ <;> cases h
      exact h'
  | missing => cases h

theorem implTypes_mentions {i : Impl} {ts : List FTy} (h : i.types = .ok ts) (n : String) :
    (∃ t ∈ ts, t.Mentions n) ↔ i.Mentions n := by
  simp only [Impl.types, Res.bind_eq_ok] at h
  obtain ⟨us, hus, h⟩ := h
  cases h
  have hm := mapL_ok_mem hus
  simp only [List.mem_append, Option.mem_toList, Impl.Mentions]
  constructor
  · rintro ⟨t, (ht | ht) | ht, hn⟩
    · obtain ⟨p, hp, hpt⟩ := (hm t).1 ht
      obtain ⟨u, hu, hun⟩ := (typeExpression_mentions hpt n).1 hn
      refine .inl ⟨u, ?_, hun⟩
      rcases hu with rfl | rfl
      · exact .inl hp
      · exact .inr hp
    · exact .inr (.inl ⟨t, ht, hn⟩)
    · exact .inr (.inr ⟨t, ht, hn⟩)
  · rintro (⟨u, hu, hn⟩ | ⟨t, ht, hn⟩ | ⟨t, ht, hn⟩)
    · refine ⟨u, .inl (.inl ?_), hn⟩
      rcases hu with hu | hu
      · exact (hm u).2 ⟨_, hu, rfl⟩
      · exact (hm u).2 ⟨_, hu, rfl⟩
    · exact ⟨t, .inl (.inr ht), hn⟩
    · exact ⟨t, .inr ht, hn⟩

theorem typeExpression_ok (p : FuncParam) : (∃ t, p.typeExpression = .ok t) ↔ p ≠ .missing := by
  cases p <;> simp [FuncParam.typeExpression]

theorem mem_allImpls (f : ExtFile) (i : Impl) :
    i ∈ (f.scalars ++ f.aggregates ++ f.windows).flatMap FuncDecl.impls ↔
      ∃ p ∈ f.declared, i ∈ p.2.impls := by
  simp only [ExtFile.declared, List.mem_flatMap, List.mem_append, List.mem_map]
  constructor
  · rintro ⟨d, (hd | hd) | hd, hi⟩
    · exact ⟨(.scalar, d), .inl (.inl ⟨d, hd, rfl⟩), hi⟩
    · exact ⟨(.aggregate, d), .inl (.inr ⟨d, hd, rfl⟩), hi⟩
    · exact ⟨(.window, d), .inr ⟨d, hd, rfl⟩, hi⟩
  · rintro ⟨p, (⟨d, hd, rfl⟩ | ⟨d, hd, rfl⟩) | ⟨d, hd, rfl⟩, hi⟩
    · exact ⟨d, .inl (.inl hd), hi⟩
    · exact ⟨d, .inl (.inr hd), hi⟩
    · exact ⟨d, .inr hd, hi⟩

/-- The check of the type references: what it panics on and what it accepts. -/
theorem validateTypeRefs_ok (f : ExtFile) : f.validateTypeRefs = .ok () ↔ f.NoMissing ∧
    ∀ p ∈ f.declared, ∀ i ∈ p.2.impls, ∀ n, i.Mentions n → ∃ t ∈ f.types, t.name = n := by
  simp only [ExtFile.validateTypeRefs, ExtFile.functionTypes, Res.bind_eq_ok]
  constructor
  · rintro ⟨_, ⟨tss, h, e⟩, hc⟩
    cases e
    split at hc
    · rename_i hall
      have hm := mapL_ok_mem h
      have ha := mapL_ok_all h
      refine ⟨fun p hp i hi hmiss => ?_, fun p hp i hi n hn => ?_⟩
      · obtain ⟨ts, hts⟩ := ha i ((mem_allImpls f i).2 ⟨p, hp, hi⟩)
        simp only [Impl.types, Res.bind_eq_ok] at hts
        obtain ⟨us, hus, _⟩ := hts
        obtain ⟨t, ht⟩ := mapL_ok_all hus _ hmiss
        cases ht
      · have hi' := (mem_allImpls f i).2 ⟨p, hp, hi⟩
        obtain ⟨ts, hts⟩ := ha i hi'
        obtain ⟨t, ht, hmt⟩ := (implTypes_mentions hts n).2 hn
        have := List.all_eq_true.1 hall n
          (List.mem_flatMap.2 ⟨t, List.mem_flatten.2 ⟨ts, (hm ts).2 ⟨i, hi', hts⟩, ht⟩,
            (mem_userTypes n t).2 hmt⟩)
        simpa using this
    · cases hc
  · rintro ⟨hmiss, hdecl⟩
    have htot : ∀ i ∈ (f.scalars ++ f.aggregates ++ f.windows).flatMap FuncDecl.impls,
        ∃ ts, i.types = .ok ts := by
      intro i hi
      obtain ⟨p, hp, hip⟩ := (mem_allImpls f i).1 hi
      obtain ⟨us, hus⟩ := mapL_total (f := FuncParam.typeExpression) (l := i.args) (fun a ha =>
        (typeExpression_ok a).2 (by rintro rfl; exact hmiss p hp i hip ha))
      exact ⟨us ++ i.ret.toList ++ i.intermediate.toList, by simp [Impl.types, hus]⟩
    obtain ⟨tss, h⟩ := mapL_total htot
    refine ⟨_, ⟨tss, h, rfl⟩, ?_⟩
    rw [if_pos]
    rw [List.all_eq_true]
    intro n hn
    obtain ⟨t, ht, hnt⟩ := List.mem_flatMap.1 hn
    obtain ⟨ts, hts, htt⟩ := List.mem_flatten.1 ht
    obtain ⟨i, hi, hit⟩ := (mapL_ok_mem h ts).1 hts
    obtain ⟨p, hp, hip⟩ := (mem_allImpls f i).1 hi
    have := hdecl p hp i hip n ((implTypes_mentions hit n).1 ⟨t, htt, (mem_userTypes n t).1 hnt⟩)
    simpa using this

/-! ## Filling the maps -/

theorem signatureKey_ok {ps : List FuncParam} (h : FuncParam.missing ∉ ps) :
    ∃ s, signatureKey ps = .ok s := by
  obtain ⟨r, hr⟩ := mapL_total (f := FuncParam.toTypeString) (l := ps) (fun a ha => by
    cases a with
    | missing => exact absurd ha h
    | enum => exact ⟨_, rfl⟩
    | value => exact ⟨_, rfl⟩
    | type => exact ⟨_, rfl⟩)
  exact ⟨_, by simp only [signatureKey, hr, Res.ok_bind]; rfl⟩

/-- a single list of the steps of the four loops -/
def addSteps (urn : String) : List (FuncKind × FuncDecl) → LoadState → LoadState × Res Unit
  | [], s => (s, .ok ())
  | (k, d) :: ds, s =>
    if d.defaultsFail then (s, .err) else thenLoad (addToMaps k urn d s) (addSteps urn ds)

def ExtFile.steps (f : ExtFile) : List (FuncKind × FuncDecl) :=
  f.declared ++ f.aggregates.map fun d => (FuncKind.window, d.asWindow)

theorem addSteps_append (urn : String) (l l' : List (FuncKind × FuncDecl)) (s : LoadState) :
    addSteps urn (l ++ l') s = thenLoad (addSteps urn l s) (addSteps urn l') := by
  induction l generalizing s with
  | nil => rfl
  | cons p l ih =>
    obtain ⟨k, d⟩ := p
    simp only [List.cons_append, addSteps]
    split
    · rfl
    · rcases addToMaps k urn d s with ⟨s', ⟨⟩ | _ | _⟩
      · exact ih s'
      · rfl
      · rfl

theorem addDecls_steps (k : FuncKind) (urn : String) (ds : List FuncDecl) (s : LoadState) :
    addDecls k urn ds s = addSteps urn (ds.map (k, ·)) s := by
  induction ds generalizing s with
  | nil => rfl
  | cons d ds ih =>
    simp only [addDecls, List.map_cons, addSteps]
    split
    · rfl
    · rcases addToMaps k urn d s with ⟨s', ⟨⟩ | _ | _⟩
      · exact ih s'
      · rfl
      · rfl

theorem loadFuncs_steps (f : ExtFile) (s : LoadState) : loadFuncs f s = addSteps f.urn f.steps s := by
  have hw : (f.aggregates.map FuncDecl.asWindow).map (FuncKind.window, ·) =
      f.aggregates.map fun d => (FuncKind.window, d.asWindow) := by simp
  rw [ExtFile.steps, ExtFile.declared, addSteps_append, addSteps_append, addSteps_append, ← hw,
    ← addDecls_steps, loadFuncs]
  congr 1
  · congr 1
    · congr 1
      funext s; exact addDecls_steps ..
    · funext s; exact addDecls_steps ..
  · funext s; exact addDecls_steps ..

theorem funcs_withFuncs (c : Collection) (k k' : FuncKind) (m : GoMap ExtId Variant) :
    (c.withFuncs k m).funcs k' = if k' = k then m else c.funcs k' := by
  cases k <;> cases k' <;> rfl

/-- everything but the functions -/
def Collection.SameRest (c c' : Collection) : Prop :=
  c'.urnSet = c.urnSet ∧ c'.simpleNames = c.simpleNames ∧ c'.types = c.types ∧
    c'.variations = c.variations ∧ c'.metadata = c.metadata

theorem sameRest_withFuncs (c : Collection) (k : FuncKind) (m : GoMap ExtId Variant) :
    c.SameRest (c.withFuncs k m) := by
  cases k <;> exact ⟨rfl, rfl, rfl, rfl, rfl⟩

theorem SameRest.trans {a b c : Collection} (h : a.SameRest b) (h' : b.SameRest c) : a.SameRest c := by
  obtain ⟨h1, h2, h3, h4, h5⟩ := h
  obtain ⟨g1, g2, g3, g4, g5⟩ := h'
  exact ⟨g1.trans h1, g2.trans h2, g3.trans h3, g4.trans h4, g5.trans h5⟩

theorem addVariants_other (urn : String) : ∀ (vs : List Variant) (m : GoMap ExtId Variant) (id : ExtId),
    id.urn ≠ urn → (addVariants urn vs m).1.get id = m.get id := by
  intro vs
  induction vs with
  | nil => intro m id _; rfl
  | cons v vs ih =>
    intro m id hid
    simp only [addVariants]
    split
    · rw [ih _ _ hid, GoMap.get_set, if_neg]
      rintro rfl; exact hid rfl
    · rfl
    · rfl

theorem addToMaps_other (k : FuncKind) (urn : String) (d : FuncDecl) (s : LoadState) :
    s.c.SameRest (addToMaps k urn d s).1.c ∧
    ∀ k' id, id.urn ≠ urn → ((addToMaps k urn d s).1.c.funcs k').get id = (s.c.funcs k').get id := by
  have key : ∃ sm, (addToMaps k urn d s).1 =
      ⟨s.c.withFuncs k (addVariants urn (d.variants k urn) (s.c.funcs k)).1, sm⟩ := by
    unfold addToMaps
    rcases addVariants urn (d.variants k urn) (s.c.funcs k) with ⟨m, ⟨⟩ | _ | _⟩
    · dsimp only
      split
      · split
        · split <;> exact ⟨_, rfl⟩
        · exact ⟨_, rfl⟩
        · exact ⟨_, rfl⟩
      · exact ⟨_, rfl⟩
    · exact ⟨_, rfl⟩
    · exact ⟨_, rfl⟩
  obtain ⟨sm, hs⟩ := key
  rw [hs]
  refine ⟨sameRest_withFuncs .., fun k' id hid => ?_⟩
  rw [funcs_withFuncs]
  split
  · rename_i e; subst e; exact addVariants_other _ _ _ _ hid
  · rfl

theorem addSteps_other (urn : String) : ∀ (l : List (FuncKind × FuncDecl)) (s : LoadState),
    s.c.SameRest (addSteps urn l s).1.c ∧
    ∀ k' id, id.urn ≠ urn → ((addSteps urn l s).1.c.funcs k').get id = (s.c.funcs k').get id := by
  intro l
  induction l with
  | nil => intro s; exact ⟨⟨rfl, rfl, rfl, rfl, rfl⟩, fun _ _ _ => rfl⟩
  | cons p l ih =>
    intro s
    obtain ⟨k, d⟩ := p
    simp only [addSteps]
    split
    · exact ⟨⟨rfl, rfl, rfl, rfl, rfl⟩, fun _ _ _ => rfl⟩
    · obtain ⟨h1, h2⟩ := addToMaps_other k urn d s
      rcases h : addToMaps k urn d s with ⟨s', ⟨⟩ | _ | _⟩
      · rw [h] at h1 h2
        obtain ⟨g1, g2⟩ := ih s'
        exact ⟨SameRest.trans h1 g1, fun k' id hid => (g2 k' id hid).trans (h2 k' id hid)⟩
      · rw [h] at h1 h2; exact ⟨h1, h2⟩
      · rw [h] at h1 h2; exact ⟨h1, h2⟩

/-! ## Successful loads -/

theorem addVariants_ok (urn : String) : ∀ (vs : List Variant) (m : GoMap ExtId Variant),
    (∀ v ∈ vs, ∃ n, v.compoundName = .ok n) →
    ∃ m', addVariants urn vs m = (m', .ok ()) ∧
      (∀ id v, m'.get id = some v → m.get id = some v ∨
        (v ∈ vs ∧ id.urn = urn ∧ v.compoundName = .ok id.name)) ∧
      (∀ v ∈ vs, ∀ n, v.compoundName = .ok n → (m'.get ⟨urn, n⟩).isSome) ∧
      (∀ id, (m.get id).isSome → (m'.get id).isSome) := by
  intro vs
  induction vs with
  | nil => intro m _; exact ⟨m, rfl, fun _ _ h => .inl h, by simp, fun _ h => h⟩
  | cons v vs ih =>
    intro m h
    obtain ⟨n, hn⟩ := h v (by simp)
    obtain ⟨m', h1, h2, h3, h4⟩ := ih (m.set ⟨urn, n⟩ v) fun w hw => h w (by simp [hw])
    refine ⟨m', by simp only [addVariants, hn, h1], fun id w hw => ?_, fun w hw n' hn' => ?_,
      fun id hid => h4 id ?_⟩
    · rcases h2 id w hw with h | ⟨h, h'⟩
      · rw [GoMap.get_set] at h
        split at h
        · rename_i e
          subst e
          cases h
          exact .inr ⟨by simp, rfl, hn⟩
        · exact .inl h
      · exact .inr ⟨by simp [h], h'⟩
    · rcases List.mem_cons.1 hw with rfl | hw
      · rw [hn] at hn'
        cases hn'
        exact h4 _ (by rw [GoMap.get_set, if_pos rfl]; rfl)
      · exact h3 w hw n' hn'
    · rw [GoMap.get_set]
      split
      · rfl
      · exact hid

/-- the compound name of the only implementation of a declaration -/
def FuncDecl.single (d : FuncDecl) : Option String :=
  match d.impls with
  | [i] =>
    match signatureKey i.args with
    | .ok s => some (d.name ++ ":" ++ s)
    | _ => none
  | _ => none

/-- what a declaration with one implementation does to the entry of its name -/
def toggle (o : Option String) (n : String) : Option String := if o.isSome then none else some n

theorem fill_args (k : FuncKind) (i : Impl) : (k.fill i).args = i.args := by cases k <;> rfl

theorem compoundName_mk (a b u : String) (k : FuncKind) (i : Impl) :
    (Variant.mk a b u (k.fill i)).compoundName = signatureKey i.args >>= fun s => .ok (a ++ ":" ++ s) := by
  simp only [Variant.compoundName, fill_args]

theorem addToMaps_ok (k : FuncKind) (urn : String) (d : FuncDecl) (s : LoadState)
    (hm : ∀ i ∈ d.impls, FuncParam.missing ∉ i.args) :
    ∃ s', addToMaps k urn d s = (s', .ok ()) ∧
      (∀ k' id v, (s'.c.funcs k').get id = some v → (s.c.funcs k').get id = some v ∨
        (k' = k ∧ v ∈ d.variants k urn ∧ id.urn = urn ∧ v.compoundName = .ok id.name)) ∧
      (∀ v ∈ d.variants k urn, ∀ n, v.compoundName = .ok n → ((s'.c.funcs k).get ⟨urn, n⟩).isSome) ∧
      (∀ k' id, ((s.c.funcs k').get id).isSome → ((s'.c.funcs k').get id).isSome) ∧
      (∀ n, s'.simple.get n = if d.name = n then d.single.elim (s.simple.get n) (toggle (s.simple.get n))
        else s.simple.get n) := by
  have hc : ∀ v ∈ d.variants k urn, ∃ n, v.compoundName = .ok n := by
    intro v hv
    simp only [FuncDecl.variants, List.mem_map] at hv
    obtain ⟨i, hi, rfl⟩ := hv
    obtain ⟨s, hs⟩ := signatureKey_ok (hm i hi)
    exact ⟨d.name ++ ":" ++ s, by rw [compoundName_mk, hs]; rfl⟩
  obtain ⟨m', h1, h2, h3, h4⟩ := addVariants_ok urn (d.variants k urn) (s.c.funcs k) hc
  have key : ∃ sm, addToMaps k urn d s = (⟨s.c.withFuncs k m', sm⟩, .ok ()) ∧
      ∀ n, sm.get n = if d.name = n then d.single.elim (s.simple.get n) (toggle (s.simple.get n))
        else s.simple.get n := by
    simp only [addToMaps, h1]
    unfold FuncDecl.single
    cases hi : d.impls with
    | nil =>
      rw [FuncDecl.variants, hi]
      exact ⟨s.simple, rfl, fun n => by simp⟩
    | cons i is =>
      cases is with
      | nil =>
        obtain ⟨sg, hsg⟩ := signatureKey_ok (hm i (by simp [hi]))
        rw [FuncDecl.variants, hi]
        simp only [List.map_cons, List.map_nil, compoundName_mk, hsg, Res.ok_bind]
        split
        · rename_i hs
          refine ⟨_, rfl, fun n => ?_⟩
          rw [GoMap.get_del]
          by_cases e : d.name = n
          · subst e
            simp [toggle, hs]
          · simp [e, Ne.symm e]
        · rename_i hs
          refine ⟨_, rfl, fun n => ?_⟩
          rw [GoMap.get_set]
          by_cases e : d.name = n
          · subst e
            simp only [Bool.not_eq_true, Option.isSome_eq_false_iff, Option.isNone_iff_eq_none] at hs
            simp [toggle, hs]
          · simp [e, Ne.symm e]
      | cons j js =>
        rw [FuncDecl.variants, hi]
        exact ⟨s.simple, rfl, fun n => by simp⟩
  obtain ⟨sm, hsm, hget⟩ := key
  refine ⟨_, hsm, fun k' id v hv => ?_, fun v hv n hn => ?_, fun k' id h => ?_, hget⟩
  · rw [funcs_withFuncs] at hv
    split at hv
    · rename_i e
      subst e
      rcases h2 id v hv with h | h
      · exact .inl h
      · exact .inr ⟨rfl, h⟩
    · exact .inl hv
  · rw [funcs_withFuncs, if_pos rfl]
    exact h3 v hv n hn
  · rw [funcs_withFuncs]
    split
    · rename_i e
      subst e
      exact h4 id h
    · exact h

/-- the compound names of the declarations of a name with exactly one implementation, in order -/
def singles (n : String) (l : List (FuncKind × FuncDecl)) : List String :=
  (l.filter fun p => p.2.name = n).filterMap fun p => p.2.single

theorem singles_cons (n : String) (p : FuncKind × FuncDecl) (l : List (FuncKind × FuncDecl)) :
    singles n (p :: l) =
      (if p.2.name = n then p.2.single.toList else []) ++ singles n l := by
  simp only [singles, List.filter_cons]
  by_cases h : p.2.name = n
  · simp only [h, decide_true, if_true, List.filterMap_cons]
    cases p.2.single <;> rfl
  · simp [h]

theorem addSteps_ok (urn : String) : ∀ (l : List (FuncKind × FuncDecl)) (s : LoadState),
    (∀ p ∈ l, p.2.defaultsFail = false ∧ ∀ i ∈ p.2.impls, FuncParam.missing ∉ i.args) →
    ∃ s', addSteps urn l s = (s', .ok ()) ∧
      (∀ k id v, (s'.c.funcs k).get id = some v → (s.c.funcs k).get id = some v ∨
        (∃ d, (k, d) ∈ l ∧ v ∈ d.variants k urn ∧ id.urn = urn ∧ v.compoundName = .ok id.name)) ∧
      (∀ k d, (k, d) ∈ l → ∀ v ∈ d.variants k urn, ∀ n, v.compoundName = .ok n →
        ((s'.c.funcs k).get ⟨urn, n⟩).isSome) ∧
      (∀ k id, ((s.c.funcs k).get id).isSome → ((s'.c.funcs k).get id).isSome) ∧
      (∀ n, s'.simple.get n = (singles n l).foldl toggle (s.simple.get n)) := by
  intro l
  induction l with
  | nil =>
    intro s _
    exact ⟨s, rfl, fun _ _ _ h => .inl h, by simp, fun _ _ h => h, fun _ => rfl⟩
  | cons p l ih =>
    intro s h
    obtain ⟨k0, d0⟩ := p
    obtain ⟨hf, hm⟩ := h (k0, d0) (by simp)
    obtain ⟨s1, e1, a1, a2, a3, a4⟩ := addToMaps_ok k0 urn d0 s hm
    obtain ⟨s', e2, b1, b2, b3, b4⟩ := ih s1 fun q hq => h q (by simp [hq])
    refine ⟨s', ?_, fun k id v hv => ?_, fun k d hd v hv n hn => ?_, fun k id hid => b3 k id (a3 k id hid),
      fun n => ?_⟩
    · simp only at hf
      simp only [addSteps, hf, e1, thenLoad, e2]
      rfl
    · rcases b1 k id v hv with h | ⟨d, hd, h⟩
      · rcases a1 k id v h with h | ⟨rfl, h⟩
        · exact .inl h
        · exact .inr ⟨d0, by simp, h⟩
      · exact .inr ⟨d, by simp [hd], h⟩
    · rcases List.mem_cons.1 hd with e | hd
      · cases e
        exact b3 _ _ (a2 v hv n hn)
      · exact b2 k d hd v hv n hn
    · rw [b4, a4, singles_cons, List.foldl_append]
      by_cases e : d0.name = n
      · simp only [e, if_true]
        cases d0.single <;> rfl
      · simp [e]

theorem toggle_even : ∀ l : List String, l.length % 2 = 0 → l.foldl toggle none = none
  | [], _ => rfl
  | [_], h => by simp at h
  | _ :: _ :: l, h => toggle_even l (by simp only [List.length_cons] at h; omega)

theorem toggle_odd (l : List String) (x : String) (h : l.length % 2 = 0) :
    (l ++ [x]).foldl toggle none = some x := by
  rw [List.foldl_append, toggle_even l h]
  rfl

theorem foldl_set_get {V : Type} (urn : String) : ∀ (l : List (String × V)) (m : GoMap ExtId V) (id : ExtId),
    (l.map Prod.fst).Nodup →
    (l.foldl (fun m p => m.set ⟨urn, p.1⟩ p.2) m).get id =
      if id.urn = urn then ((l.find? fun p => p.1 = id.name).map Prod.snd).or (m.get id) else m.get id := by
  intro l
  induction l with
  | nil => intro m id _; simp
  | cons p l ih =>
    intro m id hnd
    simp only [List.map_cons, List.nodup_cons] at hnd
    rw [List.foldl_cons, ih _ _ hnd.2, GoMap.get_set]
    obtain ⟨u, n⟩ := id
    by_cases hu : u = urn
    · subst hu
      simp only [if_true, ExtId.mk.injEq, true_and, List.find?_cons]
      by_cases hn : n = p.1
      · subst hn
        have : l.find? (fun q => q.1 = p.1) = none := by
          rw [List.find?_eq_none]
          intro q hq e
          exact hnd.1 (List.mem_map.2 ⟨q, hq, by simpa using e⟩)
        simp [this]
      · simp [hn, Ne.symm hn]
    · simp [hu]

theorem foldl_setNames {T : Type} (urn : String) (name : T → String) :
    ∀ (l : List T) (m : GoMap ExtId T) (id : ExtId),
    (l.foldl (fun m t => m.set ⟨urn, name t⟩ t) m).get id =
      if id.urn = urn then (l.reverse.find? fun t => name t = id.name).or (m.get id) else m.get id := by
  intro l
  induction l with
  | nil => intro m id; simp
  | cons t l ih =>
    intro m id
    rw [List.foldl_cons, ih, GoMap.get_set, List.reverse_cons, List.find?_append]
    obtain ⟨u, n⟩ := id
    by_cases hu : u = urn
    · subst hu
      simp only [if_true, ExtId.mk.injEq, true_and]
      by_cases hn : n = name t
      · subst hn
        simp
      · simp [hn, Ne.symm hn]
    · simp [hu]

theorem addSteps_defaults (urn : String) : ∀ (l : List (FuncKind × FuncDecl)) (s s' : LoadState),
    addSteps urn l s = (s', .ok ()) → ∀ p ∈ l, p.2.defaultsFail = false := by
  intro l
  induction l with
  | nil => simp
  | cons q l ih =>
    intro s s' h p hp
    obtain ⟨k, d⟩ := q
    simp only [addSteps] at h
    split at h
    · cases h
    · rename_i hd
      rcases e : addToMaps k urn d s with ⟨s1, ⟨⟩ | _ | _⟩
      · rw [e] at h
        rcases List.mem_cons.1 hp with rfl | hp
        · simpa using hd
        · exact ih s1 s' h p hp
      · rw [e] at h; cases h
      · rw [e] at h; cases h

/-- the conditions `Load` checks before it changes anything -/
def ExtFile.Valid (c : Collection) (f : ExtFile) : Prop :=
  IsUrn f.urn ∧ c.urnLoaded f.urn = false ∧
  (∀ p ∈ f.dependencies, IsIdentifier p.1 ∧ c.urnLoaded p.2 = true) ∧ f.NoMissing ∧
  ∀ p ∈ f.declared, ∀ i ∈ p.2.impls, ∀ n, i.Mentions n → ∃ t ∈ f.types, t.name = n

theorem dependenciesOk_iff (c : Collection) (f : ExtFile) : c.dependenciesOk f = true ↔
    ∀ p ∈ f.dependencies, IsIdentifier p.1 ∧ c.urnLoaded p.2 = true := by
  simp only [Collection.dependenciesOk, List.all_eq_true, Bool.and_eq_true, validateAlias_iff]

theorem isUrn_ne {s : String} (h : IsUrn s) : s ≠ "" := by
  rintro rfl
  obtain ⟨o, n, h, _⟩ := h
  simp at h

theorem load_invalid {c : Collection} {f : ExtFile} (h : ¬ f.Valid c) :
    c.load (some f) = (c, .err) ∨ c.load (some f) = (c, .panic) := by
  simp only [Collection.load]
  split
  · exact .inl rfl
  split
  · exact .inl rfl
  rename_i hu
  split
  · exact .inl rfl
  rename_i hl
  split
  · exact .inl rfl
  rename_i hd
  cases hv : f.validateTypeRefs with
  | err => exact .inl rfl
  | panic => exact .inr rfl
  | ok u =>
    refine absurd ⟨(validateUrn_iff _).1 (by simpa using hu), by simpa using hl,
      (dependenciesOk_iff c f).1 (by simpa using hd), (validateTypeRefs_ok f).1 hv⟩ h

theorem load_valid {c : Collection} {f : ExtFile} (h : f.Valid c) :
    c.load (some f) =
      match addSteps f.urn f.steps ⟨c.loadTypes f, .empty⟩ with
      | (s, .ok ()) =>
        ({ s.c with
           simpleNames := s.simple.entries.foldl (fun m p => m.set ⟨f.urn, p.1⟩ p.2)
             s.c.simpleNames }, .ok ())
      | (s, .err) => (s.c, .err)
      | (s, .panic) => (s.c, .panic) := by
  obtain ⟨h1, h2, h3, h4⟩ := h
  simp only [Collection.load]
  rw [if_neg (isUrn_ne h1), if_neg (by simpa using (validateUrn_iff _).2 h1), if_neg (by simp [h2]),
    if_neg (by simpa using (dependenciesOk_iff c f).2 h3), (validateTypeRefs_ok f).2 h4]
  simp only [loadFuncs_steps]
  rcases addSteps f.urn f.steps ⟨c.loadTypes f, .empty⟩ with ⟨s, ⟨⟩ | _ | _⟩ <;> rfl

theorem steps_ok {f : ExtFile} (hm : f.NoMissing) (hd : f.DefaultsOk) :
    ∀ p ∈ f.steps, p.2.defaultsFail = false ∧ ∀ i ∈ p.2.impls, FuncParam.missing ∉ i.args := by
  intro p hp
  simp only [ExtFile.steps, List.mem_append, List.mem_map] at hp
  rcases hp with hp | ⟨d, hd', rfl⟩
  · exact ⟨(hd p hp).1, hm p hp⟩
  · have : (FuncKind.aggregate, d) ∈ f.declared := by simp [ExtFile.declared, hd']
    refine ⟨(hd _ this).2, fun i hi => ?_⟩
    simp only [FuncDecl.asWindow, List.mem_map] at hi
    obtain ⟨j, hj, rfl⟩ := hi
    exact hm _ this j hj

theorem steps_missing {f : ExtFile} (hm : f.NoMissing) :
    ∀ p ∈ f.steps, ∀ i ∈ p.2.impls, FuncParam.missing ∉ i.args := by
  intro p hp
  simp only [ExtFile.steps, List.mem_append, List.mem_map] at hp
  rcases hp with hp | ⟨d, hd', rfl⟩
  · exact hm p hp
  · have : (FuncKind.aggregate, d) ∈ f.declared := by simp [ExtFile.declared, hd']
    intro i hi
    simp only [FuncDecl.asWindow, List.mem_map] at hi
    obtain ⟨j, hj, rfl⟩ := hi
    exact hm _ this j hj

theorem find_names {V : Type} (m : GoMap String V) (n : String) :
    (m.entries.find? fun p => p.1 = n).map Prod.snd = m.get n := rfl

/-- what a successful load does -/
theorem load_ok {c c' : Collection} {f : ExtFile} (h : c.load (some f) = (c', .ok ())) :
    f.Valid c ∧
    c'.urnSet = c.urnSet.set f.urn () ∧ c'.types = (c.loadTypes f).types ∧
    c'.variations = (c.loadTypes f).variations ∧ c'.metadata = (c.loadTypes f).metadata ∧
    (∀ k id, id.urn ≠ f.urn → (c'.funcs k).get id = (c.funcs k).get id) ∧
    (∀ k id v, (c'.funcs k).get id = some v → (c.funcs k).get id = some v ∨
      (∃ d, (k, d) ∈ f.steps ∧ v ∈ d.variants k f.urn ∧ id.urn = f.urn ∧ v.compoundName = .ok id.name)) ∧
    (∀ k d, (k, d) ∈ f.steps → ∀ v ∈ d.variants k f.urn, ∀ n, v.compoundName = .ok n →
      ((c'.funcs k).get ⟨f.urn, n⟩).isSome) ∧
    (∀ id, c'.simpleNames.get id =
      if id.urn = f.urn then ((singles id.name f.steps).foldl toggle none).or (c.simpleNames.get id)
      else c.simpleNames.get id) := by
  by_cases hv : f.Valid c
  · rw [load_valid hv] at h
    have hm := hv.2.2.2.1
    obtain ⟨o1, o2⟩ := addSteps_other f.urn f.steps ⟨c.loadTypes f, .empty⟩
    rcases e : addSteps f.urn f.steps ⟨c.loadTypes f, .empty⟩ with ⟨s, ⟨⟩ | _ | _⟩
    · have hds := addSteps_defaults _ _ _ _ e
      obtain ⟨s1, e1, a1, a2, a3, a4⟩ := addSteps_ok f.urn f.steps ⟨c.loadTypes f, .empty⟩
        fun p hp => ⟨hds p hp, steps_missing hm p hp⟩
      rw [e] at e1 h o1 o2
      cases e1
      cases h
      obtain ⟨r1, r2, r3, r4, r5⟩ := o1
      have hfuncs : ∀ k, (c.loadTypes f).funcs k = c.funcs k := by intro k; cases k <;> rfl
      have hfuncs' : ∀ k m, (Collection.funcs { s.c with simpleNames := m } k) = s.c.funcs k := by
        intro k m; cases k <;> rfl
      refine ⟨hv, r1, r3, r4, r5, fun k id hid => ?_, fun k id v hkv => ?_, fun k d hd v hv n hn => ?_,
        fun id => ?_⟩
      · rw [hfuncs', o2 k id hid]
        show ((c.loadTypes f).funcs k).get id = _
        rw [hfuncs]
      · rw [hfuncs'] at hkv
        have := a1 k id v hkv
        rwa [show (({ c := c.loadTypes f, simple := GoMap.empty } : LoadState).c.funcs k) = c.funcs k from
          hfuncs k] at this
      · rw [hfuncs']
        exact a2 k d hd v hv n hn
      · dsimp only
        rw [foldl_set_get _ _ _ _ s.simple.nodup, find_names, a4, r2]
        rfl
    · rw [e] at h; cases h
    · rw [e] at h; cases h
  · rcases load_invalid hv with e | e
    · rw [e] at h; cases h
    · rw [e] at h; cases h

/-- whatever the outcome, only answers about the URN of the file can change -/
theorem load_other (c : Collection) (f : ExtFile) :
    (∀ k id, id.urn ≠ f.urn → ((c.load (some f)).1.funcs k).get id = (c.funcs k).get id) ∧
    (∀ id : ExtId, id.urn ≠ f.urn → (c.load (some f)).1.types.get id = c.types.get id) ∧
    (∀ id : ExtId, id.urn ≠ f.urn → (c.load (some f)).1.variations.get id = c.variations.get id) ∧
    (∀ id : ExtId, id.urn ≠ f.urn → (c.load (some f)).1.simpleNames.get id = c.simpleNames.get id) ∧
    (∀ u, u ≠ f.urn → (c.load (some f)).1.metadata.get u = c.metadata.get u) ∧
    (∀ u, u ≠ f.urn → (c.load (some f)).1.urnSet.get u = c.urnSet.get u) ∧
    ((c.load (some f)).1 = c ∨ (c.load (some f)).1.urnLoaded f.urn = true) := by
  by_cases hv : f.Valid c
  · obtain ⟨⟨r1, r2, r3, r4, r5⟩, o2⟩ := addSteps_other f.urn f.steps ⟨c.loadTypes f, .empty⟩
    have hrest : ∃ m, (∀ id : ExtId, id.urn ≠ f.urn → m.get id = c.simpleNames.get id) ∧
        (c.load (some f)).1 =
          { (addSteps f.urn f.steps ⟨c.loadTypes f, .empty⟩).1.c with simpleNames := m } := by
      rw [load_valid hv]
      rcases e : addSteps f.urn f.steps ⟨c.loadTypes f, .empty⟩ with ⟨s, ⟨⟩ | _ | _⟩
      · rw [e] at r2
        refine ⟨_, fun id hid => ?_, rfl⟩
        rw [foldl_set_get _ _ _ _ s.simple.nodup, if_neg hid, r2]
        rfl
      · rw [e] at r2
        exact ⟨s.c.simpleNames, fun id _ => by rw [r2]; rfl, rfl⟩
      · rw [e] at r2
        exact ⟨s.c.simpleNames, fun id _ => by rw [r2]; rfl, rfl⟩
    obtain ⟨m, hm, hc⟩ := hrest
    have hfuncs : ∀ k, (c.loadTypes f).funcs k = c.funcs k := by intro k; cases k <;> rfl
    have hfuncs' : ∀ (c : Collection) k m, (Collection.funcs { c with simpleNames := m } k) = c.funcs k := by
      intro c k m; cases k <;> rfl
    rw [hc]
    refine ⟨fun k id hid => ?_, fun id hid => ?_, fun id hid => ?_, hm, fun u hu => ?_, fun u hu => ?_,
      .inr ?_⟩
    · rw [hfuncs', o2 k id hid]
      show ((c.loadTypes f).funcs k).get id = _
      rw [hfuncs]
    · dsimp only
      rw [r3]
      show (f.types.foldl (fun m t => m.set ⟨f.urn, t.name⟩ t) c.types).get id = _
      rw [foldl_setNames f.urn TypeDecl.name, if_neg hid]
    · dsimp only
      rw [r4]
      show (f.variations.foldl (fun m t => m.set ⟨f.urn, t.name⟩ t) c.variations).get id = _
      rw [foldl_setNames f.urn VariationDecl.name, if_neg hid]
    · dsimp only
      rw [r5]
      show (match f.metadata with
        | some x => c.metadata.set f.urn x
        | none => c.metadata).get u = _
      split
      · rw [GoMap.get_set, if_neg hu]
      · rfl
    · dsimp only
      rw [r1]
      show (c.urnSet.set f.urn ()).get u = _
      rw [GoMap.get_set, if_neg hu]
    · show ((addSteps f.urn f.steps ⟨c.loadTypes f, .empty⟩).1.c.urnSet.get f.urn).isSome = true
      rw [r1]
      show ((c.urnSet.set f.urn ()).get f.urn).isSome = true
      rw [GoMap.get_set, if_pos rfl]
      rfl
  · have : (c.load (some f)).1 = c := by rcases load_invalid hv with e | e <;> rw [e]
    rw [this]
    exact ⟨fun _ _ _ => rfl, fun _ _ => rfl, fun _ _ => rfl, fun _ _ => rfl, fun _ _ => rfl, fun _ _ => rfl,
      .inl rfl⟩

/-- a collection knows nothing about URNs that are not loaded -/
def Collection.Tidy (c : Collection) : Prop := ∀ urn, c.urnLoaded urn = false →
  (∀ k n, (c.funcs k).get ⟨urn, n⟩ = none) ∧ (∀ n, c.simpleNames.get ⟨urn, n⟩ = none) ∧
  (∀ n, c.types.get ⟨urn, n⟩ = none) ∧ (∀ n, c.variations.get ⟨urn, n⟩ = none) ∧
  c.metadata.get urn = none

theorem reachable_tidy {c : Collection} (h : c.Reachable) : c.Tidy := by
  induction h with
  | zero =>
    intro urn _
    refine ⟨fun k n => ?_, fun _ => rfl, fun _ => rfl, fun _ => rfl, rfl⟩
    cases k <;> rfl
  | load c file _ ih =>
    cases file with
    | none => exact ih
    | some f =>
      obtain ⟨h1, h2, h3, h4, h5, h6, h7⟩ := load_other c f
      intro urn hu
      by_cases e : urn = f.urn
      · subst e
        rcases h7 with h7 | h7
        · rw [h7] at hu ⊢
          exact ih _ hu
        · rw [h7] at hu
          cases hu
      · have hu' : c.urnLoaded urn = false := by
          rw [← hu, Collection.urnLoaded, Collection.urnLoaded, h6 urn e]
        obtain ⟨g1, g2, g3, g4, g5⟩ := ih urn hu'
        exact ⟨fun k n => (h1 k _ e).trans (g1 k n), fun n => (h4 ⟨urn, n⟩ e).trans (g2 n),
          fun n => (h2 ⟨urn, n⟩ e).trans (g3 n), fun n => (h3 ⟨urn, n⟩ e).trans (g4 n), (h5 urn e).trans g5⟩

end Verif
