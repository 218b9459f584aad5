import Verif.Spec.FuncTypes
/-! # Lemmas about declared parameter types -/

namespace Verif

theorem isCompatible_iff (p : IntParam) (v : Int32) : p.isCompatible v = true ↔ p.Admits v := by
  cases p <;> simp [IntParam.isCompatible, IntParam.Admits]

theorem singleMatches_iff (k : Single) (p : IntParam) (t : Ty) :
    singleMatches k p t = true ↔
      (∃ f n v l, k = .fixed f ∧ t = .fixed f n v l ∧ p.Admits l) ∨
      (∃ f n v l, k = .prec f ∧ t = .prec f n v l ∧ p.Admits l) := by
  cases t <;> simp [singleMatches, isCompatible_iff]
  all_goals (constructor)
  all_goals (try (rintro ⟨rfl, h⟩; exact ⟨_, rfl, ⟨rfl, rfl, rfl, rfl⟩, h⟩))
  all_goals (try grind)

mutual
theorem matchLoose_fits {N : String → UInt32 → Prop} {I : Int32 → Int64 → Prop}
    (hN : ∀ x r, N x r) (hI : ∀ i j, i = j.toInt32 → I i j) :
    ∀ (p : FTy) (t : Ty), p.matchLoose t = true → Fits N I False p t
  | .any n x, t, _ => .any _ _ _ (fun h => h.elim)
  | .prim k n v, t, h => by
    cases t <;> simp [FTy.matchLoose] at h
    subst h; exact .prim _ _ _ _ _ (fun h => h.elim)
  | .enum c n v x os, t, h => by
    cases t <;> simp [FTy.matchLoose, enumMatches] at h
    rename_i c' n' v' x' os'
    cases c' with
    | true => exact .enumArg _ _ _ _ _ _ _ _ _ (fun h => h.elim)
    | false =>
      obtain ⟨rfl, rfl⟩ := by simpa using h
      exact .enum _ _ _ _ _ _ _ _ (fun h => h.elim)
  | .single k n p, t, h => by
    simp only [FTy.matchLoose, singleMatches_iff] at h
    rcases h with ⟨f, m, v, l, rfl, rfl, h⟩ | ⟨f, m, v, l, rfl, rfl, h⟩
    · exact .fixed _ _ _ _ _ _ (fun h => h.elim) h
    · exact .prec _ _ _ _ _ _ (fun h => h.elim) h
  | .decimal n p s, t, h => by
    cases t <;> simp [FTy.matchLoose, isCompatible_iff] at h
    exact .decimal _ _ _ _ _ _ _ (fun h => h.elim) h.1 h.2
  | .list n e, t, h => by
    cases t <;> simp [FTy.matchLoose] at h
    exact .list _ _ _ _ _ (fun h => h.elim) (matchLoose_fits hN hI e _ h)
  | .map n k v, t, h => by
    cases t <;> simp [FTy.matchLoose] at h
    exact .map _ _ _ _ _ _ _ (fun h => h.elim) (matchLoose_fits hN hI k _ h.1)
      (matchLoose_fits hN hI v _ h.2)
  | .struct n ps, t, h => by
    cases t <;> simp [FTy.matchLoose] at h
    exact .struct _ _ _ _ _ (fun h => h.elim) (matchLooseList_fits hN hI ps _ h.1 h.2)
  | .func n ps r, t, h => by
    cases t <;> simp [FTy.matchLoose] at h
    exact .func _ _ _ _ _ _ (fun h => h.elim) (matchLooseList_fits hN hI ps _ h.1.1 h.1.2)
      (matchLoose_fits hN hI r _ h.2)
  | .udt n v x ps, t, h => by
    cases t <;> simp [FTy.matchLoose] at h
    exact .udt _ _ _ _ _ _ _ _ (fun h => h.elim) (hN _ _) (matchLooseParams_fits hN hI ps _ h.1 h.2)
  | .derivation as p, t, h => .derivation _ _ _ (matchLoose_fits hN hI p t (by simpa [FTy.matchLoose] using h))
theorem matchLooseList_fits {N : String → UInt32 → Prop} {I : Int32 → Int64 → Prop}
    (hN : ∀ x r, N x r) (hI : ∀ i j, i = j.toInt32 → I i j) :
    ∀ (ps : List FTy) (ts : List Ty), ps.length = ts.length → FTy.matchLooseList ps ts = true →
      FitsAll N I False ps ts
  | [], [], _, _ => .nil
  | [], _ :: _, h, _ => by simp at h
  | _ :: _, [], h, _ => by simp at h
  | p :: ps, t :: ts, hl, h => by
    simp [FTy.matchLooseList] at h
    exact .cons _ _ _ _ (matchLoose_fits hN hI p t h.1)
      (matchLooseList_fits hN hI ps ts (by simpa using hl) h.2)
theorem matchLooseParams_fits {N : String → UInt32 → Prop} {I : Int32 → Int64 → Prop}
    (hN : ∀ x r, N x r) (hI : ∀ i j, i = j.toInt32 → I i j) :
    ∀ (ps : List FParam) (ts : List TParam), ps.length = ts.length →
      FParam.matchLooseList ps ts = true → FitsParams N I False ps ts
  | [], [], _, _ => .nil
  | [], _ :: _, h, _ => by simp at h
  | _ :: _, [], h, _ => by simp at h
  | .dataType p :: ps, t :: ts, hl, h => by
    simp [FParam.matchLooseList] at h
    obtain ⟨h1, h2⟩ := h
    cases t <;> simp [FParam.matchLoose] at h1
    exact .dataType _ _ _ _ (matchLoose_fits hN hI p _ h1)
      (matchLooseParams_fits hN hI ps ts (by simpa using hl) h2)
  | .integer i :: ps, t :: ts, hl, h => by
    simp [FParam.matchLooseList] at h
    obtain ⟨h1, h2⟩ := h
    cases t <;> simp [FParam.matchLoose, FParam.matchLeaf] at h1
    exact .integer _ _ _ _ (hI _ _ h1) (matchLooseParams_fits hN hI ps ts (by simpa using hl) h2)
  | .string s :: ps, t :: ts, hl, h => by
    simp [FParam.matchLooseList] at h
    obtain ⟨h1, h2⟩ := h
    cases t <;> simp [FParam.matchLoose, FParam.matchLeaf] at h1
    subst h1
    exact .string _ _ _ (matchLooseParams_fits hN hI ps ts (by simpa using hl) h2)
end

mutual
theorem fits_matchLoose {N : String → UInt32 → Prop} {I : Int32 → Int64 → Prop} {S : Prop}
    (hI : ∀ i j, I i j → i = j.toInt32) :
    ∀ (p : FTy) (t : Ty), Fits N I S p t → p.matchLoose t = true
  | _, _, .any .. => by simp [FTy.matchLoose]
  | _, _, .prim .. => by simp [FTy.matchLoose]
  | _, _, .enumArg .. => by simp [FTy.matchLoose, enumMatches]
  | _, _, .enum .. => by simp [FTy.matchLoose, enumMatches]
  | _, _, .fixed _ _ _ _ _ _ _ h => by simp [FTy.matchLoose, singleMatches, isCompatible_iff, h]
  | _, _, .prec _ _ _ _ _ _ _ h => by simp [FTy.matchLoose, singleMatches, isCompatible_iff, h]
  | _, _, .decimal _ _ _ _ _ _ _ _ h h' => by simp [FTy.matchLoose, isCompatible_iff, h, h']
  | _, _, .list _ _ _ _ _ _ h => by simp [FTy.matchLoose, fits_matchLoose hI _ _ h]
  | _, _, .map _ _ _ _ _ _ _ _ h h' => by
    simp [FTy.matchLoose, fits_matchLoose hI _ _ h, fits_matchLoose hI _ _ h']
  | _, _, .struct _ _ _ _ _ _ h => by
    simp [FTy.matchLoose, (fitsAll_matchLoose hI _ _ h).1, (fitsAll_matchLoose hI _ _ h).2]
  | _, _, .func _ _ _ _ _ _ _ h h' => by
    simp [FTy.matchLoose, (fitsAll_matchLoose hI _ _ h).1, (fitsAll_matchLoose hI _ _ h).2,
      fits_matchLoose hI _ _ h']
  | _, _, .udt _ _ _ _ _ _ _ _ _ _ h => by
    simp [FTy.matchLoose, (fitsParams_matchLoose hI _ _ h).1, (fitsParams_matchLoose hI _ _ h).2]
  | _, _, .derivation _ _ _ h => by simp [FTy.matchLoose, fits_matchLoose hI _ _ h]
theorem fitsAll_matchLoose {N : String → UInt32 → Prop} {I : Int32 → Int64 → Prop} {S : Prop}
    (hI : ∀ i j, I i j → i = j.toInt32) :
    ∀ (ps : List FTy) (ts : List Ty), FitsAll N I S ps ts →
      ps.length = ts.length ∧ FTy.matchLooseList ps ts = true
  | _, _, .nil => by simp [FTy.matchLooseList]
  | _, _, .cons _ _ _ _ h h' => by
    simp [FTy.matchLooseList, fits_matchLoose hI _ _ h, (fitsAll_matchLoose hI _ _ h').1,
      (fitsAll_matchLoose hI _ _ h').2]
theorem fitsParams_matchLoose {N : String → UInt32 → Prop} {I : Int32 → Int64 → Prop} {S : Prop}
    (hI : ∀ i j, I i j → i = j.toInt32) :
    ∀ (ps : List FParam) (ts : List TParam), FitsParams N I S ps ts →
      ps.length = ts.length ∧ FParam.matchLooseList ps ts = true
  | _, _, .nil => by simp [FParam.matchLooseList]
  | _, _, .dataType _ _ _ _ h h' => by
    simp [FParam.matchLooseList, FParam.matchLoose, fits_matchLoose hI _ _ h,
      (fitsParams_matchLoose hI _ _ h').1, (fitsParams_matchLoose hI _ _ h').2]
  | _, _, .integer _ _ _ _ h h' => by
    simp [FParam.matchLooseList, FParam.matchLoose, FParam.matchLeaf, hI _ _ h,
      (fitsParams_matchLoose hI _ _ h').1, (fitsParams_matchLoose hI _ _ h').2]
  | _, _, .string _ _ _ h' => by
    simp [FParam.matchLooseList, FParam.matchLoose, FParam.matchLeaf,
      (fitsParams_matchLoose hI _ _ h').1, (fitsParams_matchLoose hI _ _ h').2]
end

mutual
/-- Without user-defined types the rules about them do not matter. -/
theorem fits_noUdt {N N' : String → UInt32 → Prop} {I I' : Int32 → Int64 → Prop} {S : Prop} :
    ∀ (p : FTy) (t : Ty), p.NoUdt → Fits N I S p t → Fits N' I' S p t
  | _, _, _, .any _ _ _ h => .any _ _ _ h
  | _, _, _, .prim _ _ _ _ _ h => .prim _ _ _ _ _ h
  | _, _, _, .enumArg _ _ _ _ _ _ _ _ _ h => .enumArg _ _ _ _ _ _ _ _ _ h
  | _, _, _, .enum _ _ _ _ _ _ _ _ h => .enum _ _ _ _ _ _ _ _ h
  | _, _, _, .fixed _ _ _ _ _ _ h h' => .fixed _ _ _ _ _ _ h h'
  | _, _, _, .prec _ _ _ _ _ _ h h' => .prec _ _ _ _ _ _ h h'
  | _, _, _, .decimal _ _ _ _ _ _ _ h h' h'' => .decimal _ _ _ _ _ _ _ h h' h''
  | _, _, hn, .list _ _ _ _ _ h h' => .list _ _ _ _ _ h (fits_noUdt _ _ (by simpa [FTy.NoUdt] using hn) h')
  | _, _, hn, .map _ _ _ _ _ _ _ h h' h'' => by
    simp [FTy.NoUdt] at hn
    exact .map _ _ _ _ _ _ _ h (fits_noUdt _ _ hn.1 h') (fits_noUdt _ _ hn.2 h'')
  | _, _, hn, .struct _ _ _ _ _ h h' => by
    simp [FTy.NoUdt] at hn
    exact .struct _ _ _ _ _ h (fitsAll_noUdt _ _ hn h')
  | _, _, hn, .func _ _ _ _ _ _ h h' h'' => by
    simp [FTy.NoUdt] at hn
    exact .func _ _ _ _ _ _ h (fitsAll_noUdt _ _ hn.1 h') (fits_noUdt _ _ hn.2 h'')
  | _, _, hn, .udt .. => by simp [FTy.NoUdt] at hn
  | _, _, hn, .derivation _ _ _ h => .derivation _ _ _ (fits_noUdt _ _ (by simpa [FTy.NoUdt] using hn) h)
theorem fitsAll_noUdt {N N' : String → UInt32 → Prop} {I I' : Int32 → Int64 → Prop} {S : Prop} :
    ∀ (ps : List FTy) (ts : List Ty), FTy.NoUdtList ps → FitsAll N I S ps ts → FitsAll N' I' S ps ts
  | _, _, _, .nil => .nil
  | _, _, hn, .cons _ _ _ _ h h' => by
    simp [FTy.NoUdtList] at hn
    exact .cons _ _ _ _ (fits_noUdt _ _ hn.1 h) (fitsAll_noUdt _ _ hn.2 h')
end

mutual
theorem plain_noUdt : ∀ p : FTy, p.Plain → p.NoUdt
  | .prim .., _ => trivial
  | .any .., _ => trivial
  | .enum .., _ => trivial
  | .single .., _ => trivial
  | .decimal .., _ => trivial
  | .list _ t, h => by simp [FTy.Plain, FTy.NoUdt] at *; exact plain_noUdt t h
  | .map _ k v, h => by
    simp [FTy.Plain, FTy.NoUdt] at *; exact ⟨plain_noUdt k h.1, plain_noUdt v h.2⟩
  | .struct _ ts, h => by simp [FTy.Plain, FTy.NoUdt] at *; exact plainList_noUdt ts h
  | .func .., h => by simp [FTy.Plain] at h
  | .udt .., h => by simp [FTy.Plain] at h
  | .derivation .., h => by simp [FTy.Plain] at h
theorem plainList_noUdt : ∀ ps : List FTy, FTy.PlainList ps → FTy.NoUdtList ps
  | [], _ => trivial
  | p :: ps, h => by
    simp [FTy.PlainList, FTy.NoUdtList] at *; exact ⟨plain_noUdt p h.1, plainList_noUdt ps h.2⟩
end

mutual
theorem matchStrict_fits {N : String → UInt32 → Prop} {I : Int32 → Int64 → Prop} :
    ∀ (p : FTy) (t : Ty), p.Plain → p.matchStrict t = true → Fits N I True p t
  | .any n x, t, _, h => by
    simp [FTy.matchStrict] at h; exact .any _ _ _ (fun _ => h.symm)
  | .prim k n v, t, _, h => by
    cases t <;> simp [FTy.matchStrict, FTy.matchLoose, Ty.nullability] at h
    obtain ⟨h1, rfl⟩ := h; exact .prim _ _ _ _ _ (fun _ => (of_decide_eq_true h1).symm)
  | .enum c n v x os, t, _, h => by
    cases t <;> simp [FTy.matchStrict, FTy.matchLoose, enumMatches, Ty.nullability] at h
    rename_i c' n' v' x' os'
    cases c' with
    | true => exact .enumArg _ _ _ _ _ _ _ _ _ (fun _ => (of_decide_eq_true h.1).symm)
    | false =>
      obtain ⟨h1, rfl, rfl⟩ := by simpa using h
      exact .enum _ _ _ _ _ _ _ _ (fun _ => (of_decide_eq_true h1).symm)
  | .single k n p, t, _, h => by
    simp only [FTy.matchStrict, FTy.matchLoose, Bool.and_eq_true, singleMatches_iff,
      decide_eq_true_eq] at h
    obtain ⟨h0, h⟩ := h
    rcases h with ⟨f, m, v, l, rfl, rfl, h⟩ | ⟨f, m, v, l, rfl, rfl, h⟩
    · exact .fixed _ _ _ _ _ _ (fun _ => h0.symm) h
    · exact .prec _ _ _ _ _ _ (fun _ => h0.symm) h
  | .decimal n p s, t, _, h => by
    cases t <;> simp [FTy.matchStrict, FTy.matchLoose, isCompatible_iff, Ty.nullability] at h
    exact .decimal _ _ _ _ _ _ _ (fun _ => (of_decide_eq_true h.1).symm) h.2.1 h.2.2
  | .list n e, t, hp, h => by
    cases t <;> simp [FTy.matchStrict, Ty.nullability] at h
    exact .list _ _ _ _ _ (fun _ => (of_decide_eq_true h.1).symm)
      (matchStrict_fits e _ (by simpa [FTy.Plain] using hp) h.2)
  | .map n k v, t, hp, h => by
    cases t <;> simp [FTy.matchStrict, Ty.nullability] at h
    simp [FTy.Plain] at hp
    exact .map _ _ _ _ _ _ _ (fun _ => (of_decide_eq_true h.1).symm) (matchStrict_fits k _ hp.1 h.2.1)
      (matchStrict_fits v _ hp.2 h.2.2)
  | .struct n ps, t, hp, h => by
    cases t <;> simp [FTy.matchStrict, Ty.nullability] at h
    exact .struct _ _ _ _ _ (fun _ => (of_decide_eq_true h.1).symm)
      (matchStrictList_fits ps _ (by simpa [FTy.Plain] using hp) h.2.1 h.2.2)
  | .func .., t, hp, h => by simp [FTy.Plain] at hp
  | .udt .., t, hp, h => by simp [FTy.Plain] at hp
  | .derivation .., t, hp, h => by simp [FTy.Plain] at hp
theorem matchStrictList_fits {N : String → UInt32 → Prop} {I : Int32 → Int64 → Prop} :
    ∀ (ps : List FTy) (ts : List Ty), FTy.PlainList ps → ps.length = ts.length →
      FTy.matchStrictList ps ts = true → FitsAll N I True ps ts
  | [], [], _, _, _ => .nil
  | [], _ :: _, _, h, _ => by simp at h
  | _ :: _, [], _, h, _ => by simp at h
  | p :: ps, t :: ts, hp, hl, h => by
    simp [FTy.matchStrictList] at h
    simp [FTy.PlainList] at hp
    exact .cons _ _ _ _ (matchStrict_fits p t hp.1 h.1)
      (matchStrictList_fits ps ts hp.2 (by simpa using hl) h.2)
end

mutual
theorem fits_matchStrict {N : String → UInt32 → Prop} {I : Int32 → Int64 → Prop} :
    ∀ (p : FTy) (t : Ty), p.Plain → Fits N I True p t → p.matchStrict t = true
  | _, _, _, .any _ _ _ h => by simp [FTy.matchStrict, h]
  | _, _, _, .prim _ _ _ _ _ h => by simp [FTy.matchStrict, FTy.matchLoose, Ty.nullability, h]
  | _, _, _, .enumArg _ _ _ _ _ _ _ _ _ h => by
    simp [FTy.matchStrict, FTy.matchLoose, enumMatches, Ty.nullability, h]
  | _, _, _, .enum _ _ _ _ _ _ _ _ h => by
    simp [FTy.matchStrict, FTy.matchLoose, enumMatches, Ty.nullability, h]
  | _, _, _, .fixed _ _ _ _ _ _ h h' => by
    simp [FTy.matchStrict, FTy.matchLoose, singleMatches, isCompatible_iff, Ty.nullability, h, h']
  | _, _, _, .prec _ _ _ _ _ _ h h' => by
    simp [FTy.matchStrict, FTy.matchLoose, singleMatches, isCompatible_iff, Ty.nullability, h, h']
  | _, _, _, .decimal _ _ _ _ _ _ _ h h' h'' => by
    simp [FTy.matchStrict, FTy.matchLoose, isCompatible_iff, Ty.nullability, h, h', h'']
  | _, _, hp, .list _ _ _ _ _ h h' => by
    simp [FTy.matchStrict, Ty.nullability, h, fits_matchStrict _ _ (by simpa [FTy.Plain] using hp) h']
  | _, _, hp, .map _ _ _ _ _ _ _ h h' h'' => by
    simp [FTy.Plain] at hp
    simp [FTy.matchStrict, Ty.nullability, h, fits_matchStrict _ _ hp.1 h',
      fits_matchStrict _ _ hp.2 h'']
  | _, _, hp, .struct _ _ _ _ _ h h' => by
    simp [FTy.Plain] at hp
    simp [FTy.matchStrict, Ty.nullability, h, (fitsAll_matchStrict _ _ hp h').1,
      (fitsAll_matchStrict _ _ hp h').2]
  | _, _, hp, .func .. => by simp [FTy.Plain] at hp
  | _, _, hp, .udt .. => by simp [FTy.Plain] at hp
  | _, _, hp, .derivation .. => by simp [FTy.Plain] at hp
theorem fitsAll_matchStrict {N : String → UInt32 → Prop} {I : Int32 → Int64 → Prop} :
    ∀ (ps : List FTy) (ts : List Ty), FTy.PlainList ps → FitsAll N I True ps ts →
      ps.length = ts.length ∧ FTy.matchStrictList ps ts = true
  | _, _, _, .nil => by simp [FTy.matchStrictList]
  | _, _, hp, .cons _ _ _ _ h h' => by
    simp [FTy.PlainList] at hp
    simp [FTy.matchStrictList, fits_matchStrict _ _ hp.1 h, (fitsAll_matchStrict _ _ hp.2 h').1,
      (fitsAll_matchStrict _ _ hp.2 h').2]
end

theorem strictParams_loose : ∀ (ps : List FParam) (ts : List TParam),
    FParam.matchStrictList ps ts = true → FParam.matchLooseList ps ts = true
  | [], _, _ => by simp [FParam.matchLooseList]
  | _ :: _, [], _ => by simp [FParam.matchLooseList]
  | p :: ps, t :: ts, h => by
    simp [FParam.matchStrictList, FParam.matchLooseList] at *
    refine ⟨?_, strictParams_loose ps ts h.2⟩
    have h1 := h.1
    cases p <;> cases t <;> simp_all [FParam.matchStrict, FParam.matchLoose]

mutual
theorem strict_loose : ∀ (p : FTy) (t : Ty), p.matchStrict t = true → p.matchLoose t = true
  | .any n x, t, _ => by simp [FTy.matchLoose]
  | .prim .., t, h => by simp [FTy.matchStrict] at h; exact h.2
  | .enum .., t, h => by simp [FTy.matchStrict] at h; exact h.2
  | .single .., t, h => by simp [FTy.matchStrict] at h; exact h.2
  | .decimal .., t, h => by simp [FTy.matchStrict] at h; exact h.2
  | .list n e, t, h => by
    cases t <;> simp [FTy.matchStrict] at h
    simpa [FTy.matchLoose] using strict_loose e _ h.2
  | .map n k v, t, h => by
    cases t <;> simp [FTy.matchStrict] at h
    simpa [FTy.matchLoose] using ⟨strict_loose k _ h.2.1, strict_loose v _ h.2.2⟩
  | .struct n ps, t, h => by
    cases t <;> simp [FTy.matchStrict] at h
    simpa [FTy.matchLoose] using ⟨h.2.1, strictList_loose ps _ h.2.2⟩
  | .func .., t, h => by simp [FTy.matchStrict] at h; exact h.2
  | .udt n v x ps, t, h => by
    cases t <;> simp [FTy.matchStrict] at h
    simpa [FTy.matchLoose] using ⟨h.2.1, strictParams_loose ps _ h.2.2⟩
  | .derivation .., t, h => by simp [FTy.matchStrict] at h; exact h.2
theorem strictList_loose : ∀ (ps : List FTy) (ts : List Ty),
    FTy.matchStrictList ps ts = true → FTy.matchLooseList ps ts = true
  | [], _, _ => by simp [FTy.matchLooseList]
  | _ :: _, [], _ => by simp [FTy.matchLooseList]
  | p :: ps, t :: ts, h => by
    simp [FTy.matchStrictList, FTy.matchLooseList] at *
    exact ⟨strict_loose p t h.1, strictList_loose ps ts h.2⟩
end

end Verif
