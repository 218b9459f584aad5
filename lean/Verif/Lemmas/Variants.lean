import Verif.Lemmas.FuncTypes
import Verif.Lemmas.Types
import Verif.Lemmas.GoMap
import Verif.Spec.Variants
import Mathlib.Data.List.Forall2
/-! # Lemmas about function variants -/

namespace Verif

/-! ### Comparing argument types -/

theorem wn_plan {t : Ty} (n : Nullability) (h : t.PlanType) : (t.withNullability n).PlanType := by
  cases t <;> simp [Ty.withNullability, Ty.PlanType] at * <;> exact h

theorem wn_erase (t u : Ty) (m n : Nullability) :
    (t.withNullability m).erase = (u.withNullability m).erase ↔
      (t.withNullability n).erase = (u.withNullability n).erase := by
  cases t <;> cases u <;> simp [Ty.withNullability, Ty.erase]

theorem wn_nullability (t : Ty) (n : Nullability) : (t.withNullability n).nullability = n := by
  cases t <;> rfl

theorem wn_wn (t : Ty) (m n : Nullability) :
    (t.withNullability m).withNullability n = t.withNullability n := by
  cases t <;> rfl

/-- `Equals` of arguments with the same nullability decides `SameBut`. -/
theorem argument_equals {e t : Ty} (n : Nullability) (he : e.Argument) (ht : t.Argument) :
    Decides (Ty.equals (e.withNullability n) (t.withNullability n)) (e.SameBut t) := by
  rcases he with he | rfl
  · have h := equals_spec (e.withNullability n) (t.withNullability n) (wn_plan n he)
    obtain ⟨r, h1, h2⟩ := h
    exact ⟨r, h1, h2.trans (wn_erase e t n _)⟩
  · rcases ht with ht | rfl
    · refine ⟨false, ?_, ?_⟩
      · cases t <;> simp_all [Ty.equals, Ty.withNullability, Ty.PlanType]
      · cases t <;> simp_all [Ty.SameBut, Ty.Same, Ty.erase, Ty.withNullability, Ty.PlanType]
    · exact ⟨true, by simp [Ty.equals, Ty.withNullability], by simp [Ty.SameBut, Ty.Same]⟩

theorem sameBut_refl (t : Ty) : t.SameBut t := rfl

theorem sameBut_symm {t u : Ty} (h : t.SameBut u) : u.SameBut t := Eq.symm h

theorem sameBut_trans {t u w : Ty} (h : t.SameBut u) (h' : u.SameBut w) : t.SameBut w :=
  Eq.trans h h'

/-! ### Arguments changed in place -/

/-- `b` is `a` after some `WithNullability` calls. -/
def Touched (a b : Ty) : Prop := ∃ n, b = a.afterWithNullability n

theorem touched_refl (a : Ty) : Touched a a := by
  refine ⟨a.nullability, ?_⟩
  cases a with
  | prec k n v p => cases k <;> rfl
  | _ => rfl

theorem touched_list_refl (l : List Ty) : List.Forall₂ Touched l l := by
  induction l with
  | nil => exact .nil
  | cons a l ih => exact .cons (touched_refl a) ih

theorem touched_id {a b : Ty} (h : Touched a b) (ha : ¬ a.IsDayInterval) : b = a := by
  obtain ⟨n, rfl⟩ := h
  cases a with
  | prec k n v p => cases k <;> simp_all [Ty.IsDayInterval, Ty.afterWithNullability]
  | _ => rfl

theorem touched_eq_or {a b : Ty} (h : Touched a b) :
    b = a ∨ ∃ n, b = a.withNullability n ∧ ¬ a.IsEnumArg := by
  obtain ⟨n, rfl⟩ := h
  cases a with
  | prec k n v p => cases k <;> simp [Ty.afterWithNullability, Ty.withNullability, Ty.IsEnumArg]
  | _ => exact .inl rfl

theorem touched_sameBut {a b : Ty} (h : Touched a b) : a.SameBut b := by
  rcases touched_eq_or h with rfl | ⟨n, rfl, _⟩
  · exact sameBut_refl _
  · unfold Ty.SameBut Ty.Same; rw [wn_wn]

theorem touched_argument {a b : Ty} (h : Touched a b) (ha : a.Argument) : b.Argument := by
  obtain ⟨n, rfl⟩ := h
  cases a with
  | prec k n v p => cases k <;> simp [Ty.afterWithNullability, Ty.Argument, Ty.PlanType]
  | _ => exact ha

theorem consistentFrom_touched : ∀ (rest : List Ty) (a : Ty) (b : Bool) (rest' : List Ty),
    consistentFrom a rest = .ok (b, rest') → List.Forall₂ Touched rest rest'
  | [], a, b, rest', h => by simp [consistentFrom] at h; obtain ⟨_, rfl⟩ := h; exact .nil
  | c :: rest, a, b, rest', h => by
    simp only [consistentFrom, Res.bind_eq_ok] at h
    obtain ⟨same, _, h⟩ := h
    cases same with
    | true =>
      simp only [if_true, Res.bind_eq_ok] at h
      obtain ⟨⟨b', r'⟩, h1, h2⟩ := h
      simp at h2
      obtain ⟨rfl, rfl⟩ := h2
      exact .cons ⟨_, rfl⟩ (consistentFrom_touched rest _ _ _ h1)
    | false =>
      simp at h
      obtain ⟨_, rfl⟩ := h
      exact .cons ⟨_, rfl⟩ (touched_list_refl _)

theorem validateVariadic_ok {v : Variadic} {args args' : List Ty} {b : Bool}
    (h : validateVariadic v args = .ok (b, args')) :
    List.Forall₂ Touched args args' ∧ (v.consistent = false → args' = args) ∧
      (b = true → v.validCount args.length = true) := by
  unfold validateVariadic at h
  cases hc : v.validCount args.length with
  | false => simp [hc] at h; obtain ⟨rfl, rfl⟩ := h; exact ⟨touched_list_refl _, by simp, by simp⟩
  | true =>
    simp only [hc, Bool.not_true, Bool.false_eq_true, if_false] at h
    cases hk : v.consistent with
    | false => simp [hk] at h; obtain ⟨rfl, rfl⟩ := h; exact ⟨touched_list_refl _, by simp, by simp⟩
    | true =>
      simp only [hk, if_true] at h
      cases hd : args.drop (max (v.min - 1) 0).toNat with
      | nil => simp [hd] at h; obtain ⟨rfl, rfl⟩ := h; exact ⟨touched_list_refl _, by simp, by simp⟩
      | cons a rest =>
        simp only [hd, Res.bind_eq_ok] at h
        obtain ⟨⟨b', rest'⟩, h1, h2⟩ := h
        simp at h2
        obtain ⟨rfl, rfl⟩ := h2
        refine ⟨?_, by simp, by simp⟩
        conv => arg 2; rw [← List.take_append_drop (max (v.min - 1) 0).toNat args, hd]
        exact List.rel_append (touched_list_refl _)
          (.cons (touched_refl a) (consistentFrom_touched _ _ _ _ h1))

/-! ### What an accepted call went through -/

/-- the declared type a parameter is matched with -/
def FuncParam.def? : FuncParam → Option FTy
  | .value t => some t
  | .enum .. => some commonEnum
  | _ => none

theorem funcDefs_ok : ∀ {params : List FuncParam} {defs : List FTy}, funcDefs params = .ok defs →
    List.Forall₂ (fun p d => p.def? = some d) params defs
  | [], defs, h => by simp [funcDefs] at h; subst h; exact .nil
  | .value t :: ps, defs, h => by
    simp only [funcDefs, Res.bind_eq_ok] at h
    obtain ⟨ds, h1, h2⟩ := h
    simp at h2; subst h2
    exact .cons rfl (funcDefs_ok h1)
  | .enum x os :: ps, defs, h => by
    simp only [funcDefs, Res.bind_eq_ok] at h
    obtain ⟨ds, h1, h2⟩ := h
    simp at h2; subst h2
    exact .cons rfl (funcDefs_ok h1)
  | .type _ :: ps, defs, h => by simp [funcDefs] at h
  | .missing :: ps, defs, h => by simp [funcDefs] at h

/-- the test made for one argument -/
def accepts : NullHandling → FTy → Ty → Bool
  | .discrete, p, t => p.matchStrict t
  | .mirror, p, t => p.matchLoose t
  | .declaredOutput, p, t => p.matchLoose t
  | _, _, _ => false

theorem index_last (defs : List FTy) (p : FTy) :
    Res.index defs ((defs.length : Int) - 1) = .ok p ↔ defs.getLast? = some p := by
  rw [Res.index_eq_ok, List.getLast?_eq_getElem?]
  cases defs with
  | nil => simp
  | cons a l =>
    have h : (((a :: l).length : Int) - 1).toNat = (a :: l).length - 1 := by simp
    rw [h]
    constructor
    · exact fun h => h.2
    · exact fun h => ⟨by simp, h⟩

theorem matchAt_true {t : Ty} {pos : Nat} {nh : NullHandling} {defs : List FTy}
    {variadic : Option Variadic}
    (h : matchArgumentAtCommon t pos nh defs variadic = .ok true) :
    ∃ p, paramFor defs pos = some p ∧ accepts nh p t = true := by
  have key : ∀ p, (if pos < defs.length then Res.index defs pos
      else Res.index defs ((defs.length : Int) - 1)) = .ok p → paramFor defs pos = some p := by
    intro p h1
    unfold paramFor
    split at h1
    · rename_i hp
      rw [Res.index_eq_ok] at h1
      simpa [hp] using h1.2
    · rename_i hp
      simpa [hp] using (index_last defs p).1 h1
  unfold matchArgumentAtCommon at h
  cases variadic <;> simp only at h <;> split at h <;> first
    | (simp at h; done)
    | (rw [Res.bind_eq_ok] at h
       obtain ⟨p, h1, h2⟩ := h
       exact ⟨p, key p h1, by cases nh <;> simp_all [accepts]⟩)

theorem matchEach_true {nh : NullHandling} {defs : List FTy} {variadic : Option Variadic} :
    ∀ {args : List Ty} {pos : Nat}, matchEach nh defs variadic pos args = .ok true →
      ∀ (i : Nat) (t : Ty), args[i]? = some t →
        ∃ p, paramFor defs (pos + i) = some p ∧ accepts nh p t = true
  | [], pos, _, i, t, ht => by simp at ht
  | a :: args, pos, h, i, t, ht => by
    simp only [matchEach, Res.bind_eq_ok] at h
    obtain ⟨b, h1, h2⟩ := h
    cases b with
    | false => simp at h2
    | true =>
      simp only [if_true] at h2
      cases i with
      | zero =>
        simp at ht; subst ht
        simpa using matchAt_true h1
      | succ i =>
        have := matchEach_true h2 i t (by simpa using ht)
        simpa [Nat.add_assoc, Nat.add_comm 1 i] using this

theorem matchCount_true {params : List FuncParam} {variadic : Option Variadic} {args args1 : List Ty}
    (h1 : matchCount params variadic args = .ok (true, args1)) :
    Admissible params.length variadic args.length ∧ List.Forall₂ Touched args args1 ∧
      ((∀ v, variadic = some v → v.consistent = false) → args1 = args) := by
  unfold matchCount at h1
  cases variadic with
  | none =>
    simp at h1
    obtain ⟨hl, rfl⟩ := h1
    exact ⟨hl, touched_list_refl _, fun _ => rfl⟩
  | some v =>
    simp only at h1
    split at h1
    · simp at h1
    · rename_i hn
      simp only [Bool.or_eq_true, decide_eq_true_eq, not_or] at hn
      rw [Res.bind_eq_ok] at h1
      obtain ⟨⟨b', rest'⟩, h3, h4⟩ := h1
      simp at h4
      obtain ⟨rfl, rfl⟩ := h4
      obtain ⟨t1, t2, t3⟩ := validateVariadic_ok h3
      have t3 := t3 rfl
      simp [Variadic.validCount] at t3
      refine ⟨?_, ?_, ?_⟩
      · simp only [Admissible]
        have e : ((args.length - (params.length - 1) : Nat) : Int)
            = (args.length : Int) - ((params.length : Int) - 1) := by omega
        rw [e] at t3
        refine ⟨by omega, by omega, t3.1, ?_⟩
        rcases t3.2 with t | t
        · exact .inr t
        · exact .inl t
      · conv => arg 2; rw [← List.take_append_drop (params.length - 1) args]
        exact List.rel_append (touched_list_refl _) t1
      · intro hc
        rw [t2 (hc v rfl), List.take_append_drop]

/-- An accepted call, taken apart. -/
theorem match_true {nh : NullHandling} {params : List FuncParam} {variadic : Option Variadic}
    {args args' : List Ty} (h : matchArguments nh params variadic args = .ok (true, args')) :
    ∃ args1 defs, matchCount params variadic args = .ok (true, args1) ∧
      Admissible params.length variadic args.length ∧
      List.Forall₂ Touched args args1 ∧
      ((∀ v, variadic = some v → v.consistent = false) → args1 = args) ∧
      funcDefs params = .ok defs ∧ matchEach nh defs variadic 0 args1 = .ok true ∧
      ((hasSyncParams [] defs = .ok true ∧ areSyncMatching defs args1 = .ok true ∧ args' = args1) ∨
       (hasSyncParams [] defs = .ok false ∧ validateAny defs args1 variadic = .ok args')) := by
  unfold matchArguments at h
  rw [Res.bind_eq_ok] at h
  obtain ⟨⟨b, args1⟩, h1, h2⟩ := h
  cases b with
  | false => simp at h2
  | true =>
    simp only [Bool.not_true, Bool.false_eq_true, if_false] at h2
    have hA := matchCount_true h1
    cases hd : funcDefs params with
    | err => simp [hd] at h2
    | panic => simp [hd] at h2
    | ok defs =>
      simp only [hd] at h2
      rw [Res.bind_eq_ok] at h2
      obtain ⟨b, h3, h4⟩ := h2
      cases b with
      | false => simp at h4
      | true =>
        simp only [Bool.not_true, Bool.false_eq_true, if_false, Res.bind_eq_ok] at h4
        obtain ⟨sync, h5, h6⟩ := h4
        refine ⟨args1, defs, h1, hA.1, hA.2.1, hA.2.2, rfl, h3, ?_⟩
        cases sync with
        | true =>
          simp only [if_true, Res.bind_eq_ok] at h6
          obtain ⟨b, h7, h8⟩ := h6
          simp at h8
          obtain ⟨rfl, rfl⟩ := h8
          exact .inl ⟨h5, h7, rfl⟩
        | false =>
          simp only [Bool.false_eq_true, if_false, Res.bind_eq_ok] at h6
          obtain ⟨a, h7, h8⟩ := h6
          simp at h8
          subst h8
          exact .inr ⟨h5, h7⟩

theorem forall₂_get {α β : Type} {R : α → β → Prop} {l : List α} {m : List β}
    (h : List.Forall₂ R l m) (i : Nat) (a : α) (ha : l[i]? = some a) :
    ∃ b, m[i]? = some b ∧ R a b := by
  induction h generalizing i with
  | nil => simp at ha
  | cons hab _ ih =>
    cases i with
    | zero => simp at ha; subst ha; exact ⟨_, by simp, hab⟩
    | succ i => simpa using ih i (by simpa using ha)

theorem forall₂_get' {α β : Type} {R : α → β → Prop} {l : List α} {m : List β}
    (h : List.Forall₂ R l m) (i : Nat) (b : β) (hb : m[i]? = some b) :
    ∃ a, l[i]? = some a ∧ R a b := by
  induction h generalizing i with
  | nil => simp at hb
  | cons hab _ ih =>
    cases i with
    | zero => simp at hb; subst hb; exact ⟨_, by simp, hab⟩
    | succ i => simpa using ih i (by simpa using hb)

theorem paramFor_forall₂ {params : List FuncParam} {defs : List FTy}
    (h : List.Forall₂ (fun p d => p.def? = some d) params defs) (i : Nat) (d : FTy)
    (hd : paramFor defs i = some d) : ∃ p, paramFor params i = some p ∧ p.def? = some d := by
  have hl := h.length_eq
  unfold paramFor at *
  rw [hl]
  split at hd
  · rename_i hi
    simpa [hi] using forall₂_get' h i d hd
  · rename_i hi
    simp only [hi, if_false]
    rw [List.getLast?_eq_getElem?] at *
    rw [hl]
    exact forall₂_get' h _ d hd

/-! ### No panics -/

theorem argument_equals_ok {a : Ty} (b : Ty) (ha : a.Argument) : ∃ r, Ty.equals a b = .ok r := by
  rcases ha with ha | rfl
  · obtain ⟨r, h, _⟩ := equals_spec a b ha
    exact ⟨r, h⟩
  · cases b <;> simp [Ty.equals]

theorem consistentFrom_ok : ∀ (rest : List Ty) (a : Ty), a.Argument → (∀ t ∈ rest, t.Argument) →
    ∃ r, consistentFrom a rest = .ok r
  | [], a, _, _ => ⟨_, rfl⟩
  | b :: rest, a, ha, h => by
    obtain ⟨s, hs⟩ := argument_equals_ok (b.withNullability a.nullability) ha
    simp only [consistentFrom, hs, Res.ok_bind]
    cases s with
    | false => simp
    | true =>
      obtain ⟨r, hr⟩ := consistentFrom_ok rest (b.afterWithNullability a.nullability)
        (touched_argument ⟨_, rfl⟩ (h b (by simp))) (fun t ht => h t (by simp [ht]))
      simp [hr]

theorem validateVariadic_total (v : Variadic) (args : List Ty) (h : ∀ t ∈ args, t.Argument) :
    ∃ r, validateVariadic v args = .ok r := by
  unfold validateVariadic
  split
  · exact ⟨_, rfl⟩
  · split
    · simp only
      split
      · exact ⟨_, rfl⟩
      · rename_i a rest hd
        have hm : ∀ t ∈ a :: rest, t.Argument := fun t ht => h t (by
          rw [← hd] at ht; exact List.mem_of_mem_drop ht)
        obtain ⟨r, hr⟩ := consistentFrom_ok rest a (hm a (by simp)) (fun t ht => hm t (by simp [ht]))
        simp [hr]
    · exact ⟨_, rfl⟩

theorem funcDefs_ne_panic : ∀ params : List FuncParam, funcDefs params ≠ .panic
  | [] => by simp [funcDefs]
  | .value t :: ps => by
    simp only [funcDefs]; exact Res.bind_ne_panic (funcDefs_ne_panic ps) (by simp)
  | .enum x os :: ps => by
    simp only [funcDefs]; exact Res.bind_ne_panic (funcDefs_ne_panic ps) (by simp)
  | .type _ :: ps => by simp [funcDefs]
  | .missing :: ps => by simp [funcDefs]

theorem matchAt_ne_panic {t : Ty} {pos : Nat} {nh : NullHandling} {defs : List FTy}
    {variadic : Option Variadic} (h : variadic.isSome → defs ≠ []) :
    matchArgumentAtCommon t pos nh defs variadic ≠ .panic := by
  unfold matchArgumentAtCommon
  have fin : ∀ x : Res FTy, x ≠ .panic → (x >>= fun p => match nh with
      | .discrete => Res.ok (p.matchStrict t)
      | .mirror => .ok (p.matchLoose t)
      | .declaredOutput => .ok (p.matchLoose t)
      | _ => .err) ≠ .panic := by
    intro x hx
    refine Res.bind_ne_panic hx ?_
    intro p _
    cases nh <;> simp
  have idx : (pos < defs.length ∨ defs ≠ []) → (if pos < defs.length then Res.index defs pos
      else Res.index defs ((defs.length : Int) - 1)) ≠ .panic := by
    intro h
    split
    · rename_i hp
      rw [Res.index_nat _ _ hp]; simp
    · rename_i hp
      have h : defs ≠ [] := by rcases h with h | h
                               · exact absurd h hp
                               · exact h
      have := (index_last defs (defs.getLast h)).2 (List.getLast?_eq_getLast_of_ne_nil h)
      rw [this]; simp
  simp only
  cases variadic with
  | none =>
    simp only
    split
    · simp
    · rename_i hp
      simp at hp
      have := fin _ (idx (.inl hp))
      cases nh <;> exact this
  | some v =>
    simp only
    split
    · simp
    · have := fin _ (idx (.inr (h rfl)))
      cases nh <;> exact this

theorem matchEach_ne_panic {nh : NullHandling} {defs : List FTy} {variadic : Option Variadic}
    (h : variadic.isSome → defs ≠ []) :
    ∀ (args : List Ty) (pos : Nat), matchEach nh defs variadic pos args ≠ .panic
  | [], _ => by simp [matchEach]
  | t :: ts, pos => by
    simp only [matchEach]
    refine Res.bind_ne_panic (matchAt_ne_panic h) ?_
    intro b _
    split
    · exact matchEach_ne_panic h ts (pos + 1)
    · simp

mutual
theorem leaves_total : ∀ p : FTy, p.NoUdt → ∃ l, p.leaves = .ok l
  | .prim .., _ => ⟨_, rfl⟩
  | .any .., _ => ⟨_, rfl⟩
  | .enum .., _ => ⟨_, rfl⟩
  | .single .., _ => ⟨_, rfl⟩
  | .decimal .., _ => ⟨_, rfl⟩
  | .list _ t, h => by
    simp only [FTy.leaves]; exact leaves_total t (by simpa [FTy.NoUdt] using h)
  | .map _ k v, h => by
    simp only [FTy.NoUdt] at h
    obtain ⟨a, ha⟩ := leaves_total k h.1
    obtain ⟨b, hb⟩ := leaves_total v h.2
    simp [FTy.leaves, ha, hb]
  | .struct _ ts, h => by
    simp only [FTy.leaves]; exact leavesList_total ts (by simpa [FTy.NoUdt] using h)
  | .func _ ps r, h => by
    simp only [FTy.NoUdt] at h
    obtain ⟨a, ha⟩ := leavesList_total ps h.1
    obtain ⟨b, hb⟩ := leaves_total r h.2
    simp [FTy.leaves, ha, hb]
  | .udt .., h => by simp [FTy.NoUdt] at h
  | .derivation _ t, h => by
    simp only [FTy.leaves]; exact leaves_total t (by simpa [FTy.NoUdt] using h)
theorem leavesList_total : ∀ ps : List FTy, FTy.NoUdtList ps → ∃ l, FTy.leavesList ps = .ok l
  | [], _ => ⟨_, rfl⟩
  | p :: ps, h => by
    simp only [FTy.NoUdtList] at h
    obtain ⟨a, ha⟩ := leaves_total p h.1
    obtain ⟨b, hb⟩ := leavesList_total ps h.2
    simp [FTy.leavesList, ha, hb]
end

theorem hasSync_total : ∀ (ps : List FTy) (seen : List String), (∀ p ∈ ps, p.NoUdt) →
    ∃ b, hasSyncParams seen ps = .ok b
  | [], _, _ => ⟨_, rfl⟩
  | p :: ps, seen, h => by
    obtain ⟨a, ha⟩ := leaves_total p (h p (by simp))
    simp only [hasSyncParams, ha, Res.ok_bind]
    split
    · exact ⟨_, rfl⟩
    · exact hasSync_total ps _ (fun q hq => h q (by simp [hq]))

theorem bindNames_ne_panic : ∀ (ps : List AbsParam) (vs : List GVal) (st : GoMap String GVal),
    bindNames ps vs st ≠ .panic
  | [], vs, st => by cases vs <;> simp [bindNames]
  | .int (.var x) :: ps, [], st => by simp [bindNames]
  | .int (.concrete x) :: ps, [], st => by simp [bindNames]
  | .ty _ :: ps, [], st => by simp [bindNames]
  | .udtParam _ :: ps, [], st => by simp [bindNames]
  | .int (.var x) :: ps, v :: vs, st => by
    simp only [bindNames]
    split
    · split
      · exact bindNames_ne_panic ps vs _
      · simp
    · exact bindNames_ne_panic ps vs _
  | .int (.concrete x) :: ps, v :: vs, st => by
    simp only [bindNames]; exact bindNames_ne_panic ps vs _
  | .ty _ :: ps, v :: vs, st => by simp only [bindNames]; exact bindNames_ne_panic ps vs _
  | .udtParam _ :: ps, v :: vs, st => by simp only [bindNames]; exact bindNames_ne_panic ps vs _

theorem buildMap_ne_panic : ∀ (ps : List FTy) (args : List Ty) (st : GoMap String GVal),
    ps.length ≤ args.length → buildNameValueMap ps args st ≠ .panic
  | [], args, st, _ => by simp [buildNameValueMap]
  | p :: ps, [], st, h => by simp at h
  | p :: ps, a :: args, st, h => by
    simp only [List.length_cons, Nat.add_le_add_iff_right] at h
    simp only [buildNameValueMap]
    split
    · exact buildMap_ne_panic ps _ st (by simpa using h)
    · split
      · simp
      · exact Res.bind_ne_panic (bindNames_ne_panic _ _ _) (fun st _ => buildMap_ne_panic ps args st h)

/-! ### Type variables -/

/-- All types bound are argument types. -/
def GoodBindings (b : GoMap String Ty) : Prop := ∀ x t, b.get x = some t → t.Argument

/-- Every binding of `b` is still in `b'`. -/
def BindsMore (b b' : GoMap String Ty) : Prop := ∀ x t, b.get x = some t → b'.get x = some t

theorem extends_refl (b : GoMap String Ty) : BindsMore b b := fun _ _ h => h

theorem bindAny_spec {x : String} {t : Ty} {b : GoMap String Ty} (hb : GoodBindings b)
    (ht : t.Argument) : bindAny x t b ≠ .panic ∧ ∀ b', bindAny x t b = .ok b' →
      GoodBindings b' ∧ BindsMore b b' ∧ (x ≠ "any" → ∃ e, b'.get x = some e ∧ e.SameBut t) := by
  unfold bindAny
  split
  · rename_i hx
    refine ⟨by simp, ?_⟩
    intro b' h
    simp at h; subst h
    exact ⟨hb, extends_refl _, fun h => absurd hx h⟩
  · cases hg : b.get x with
    | none =>
      refine ⟨by simp, ?_⟩
      intro b' h
      simp at h; subst h
      refine ⟨?_, ?_, fun _ => ⟨t, by simp [GoMap.get_set], sameBut_refl t⟩⟩
      · intro y u hu
        rw [GoMap.get_set] at hu
        split at hu
        · simp at hu; subst hu; exact ht
        · exact hb y u hu
      · intro y u hu
        rw [GoMap.get_set]
        split
        · rename_i hy; subst hy; rw [hg] at hu; cases hu
        · exact hu
    | some e =>
      obtain ⟨r, hr, hs⟩ := argument_equals (t := t) NullabilityRequired (hb x e hg) ht
      simp only [hr, Res.ok_bind]
      cases r with
      | false => simp
      | true =>
        refine ⟨by simp, ?_⟩
        intro b' h
        simp at h; subst h
        exact ⟨hb, extends_refl _, fun _ => ⟨e, hg, hs.1 rfl⟩⟩

/-- what a successful `bindAnyTypes` guarantees -/
def Binds (p : FTy) (t : Ty) (b b' : GoMap String Ty) : Prop :=
  GoodBindings b' ∧ BindsMore b b' ∧
    (p.Plain → p.matchLoose t = true →
      ∀ x s, AnyAt x p t s → x ≠ "any" → ∃ e, b'.get x = some e ∧ e.SameBut s)

/-- the same for lists -/
def BindsList (ps : List FTy) (ts : List Ty) (b b' : GoMap String Ty) : Prop :=
  GoodBindings b' ∧ BindsMore b b' ∧
    ∀ (i : Nat) (p : FTy) (t : Ty), ps[i]? = some p → ts[i]? = some t → p.Plain →
      p.matchLoose t = true → ∀ x s, AnyAt x p t s → x ≠ "any" → ∃ e, b'.get x = some e ∧ e.SameBut s

theorem plan_argument {t : Ty} (h : t.PlanType) : t.Argument := .inl h

theorem argument_list {n v t} (h : (Ty.list n v t).Argument) : t.PlanType := by
  rcases h with h | h
  · simpa [Ty.PlanType] using h
  · cases h

theorem argument_map {n v k e} (h : (Ty.map n v k e).Argument) : k.PlanType ∧ e.PlanType := by
  rcases h with h | h
  · simpa [Ty.PlanType] using h
  · cases h

theorem planList_mem : ∀ {ts : List Ty}, Ty.PlanTypeList ts → ∀ t ∈ ts, t.PlanType
  | [], _, t, ht => by simp at ht
  | a :: ts, h, t, ht => by
    simp only [Ty.PlanTypeList] at h
    rcases List.mem_cons.1 ht with rfl | ht
    · exact h.1
    · exact planList_mem h.2 t ht

theorem argument_struct {n v ts} (h : (Ty.struct n v ts).Argument) : ∀ t ∈ ts, t.PlanType := by
  rcases h with h | h
  · simp only [Ty.PlanType] at h; exact planList_mem h
  · cases h

theorem plainList_get : ∀ {ps : List FTy}, FTy.PlainList ps → ∀ (i : Nat) p, ps[i]? = some p → p.Plain
  | [], _, i, p, h => by simp at h
  | q :: ps, hp, i, p, h => by
    simp only [FTy.PlainList] at hp
    cases i with
    | zero => simp at h; subst h; exact hp.1
    | succ i => exact plainList_get hp.2 i p (by simpa using h)

theorem matchLooseList_get : ∀ {ps : List FTy} {ts : List Ty}, FTy.matchLooseList ps ts = true →
    ∀ (i : Nat) p t, ps[i]? = some p → ts[i]? = some t → p.matchLoose t = true
  | [], ts, _, i, p, t, hp, ht => by simp at hp
  | q :: ps, [], _, i, p, t, hp, ht => by simp at ht
  | q :: ps, u :: ts, h, i, p, t, hp, ht => by
    simp only [FTy.matchLooseList, Bool.and_eq_true] at h
    cases i with
    | zero => simp at hp ht; subst hp ht; exact h.1
    | succ i => exact matchLooseList_get h.2 i p t (by simpa using hp) (by simpa using ht)

mutual
theorem bindAnyTypes_spec : ∀ (p : FTy) (t : Ty) (b : GoMap String Ty), GoodBindings b →
    t.Argument → bindAnyTypes p t b ≠ .panic ∧
      ∀ b', bindAnyTypes p t b = .ok b' → Binds p t b b'
  | .any n y, t, b, hb, ht => by
    simp only [bindAnyTypes]
    obtain ⟨h1, h2⟩ := bindAny_spec (x := y) hb ht
    refine ⟨h1, fun b' h => ?_⟩
    obtain ⟨g, e, s⟩ := h2 b' h
    refine ⟨g, e, ?_⟩
    intro _ _ x s' ha hx
    cases ha
    exact s hx
  | .list n p, t, b, hb, ht => by
    cases t with
    | list n' v' t =>
      simp only [bindAnyTypes]
      obtain ⟨h1, h2⟩ := bindAnyTypes_spec p t b hb (plan_argument (argument_list ht))
      refine ⟨h1, fun b' h => ?_⟩
      obtain ⟨g, e, s⟩ := h2 b' h
      refine ⟨g, e, ?_⟩
      intro hp hm x s' ha hx
      cases ha with
      | list _ _ _ _ _ _ ha =>
        exact s (by simpa [FTy.Plain] using hp) (by simpa [FTy.matchLoose] using hm) x s' ha hx
    | _ =>
      simp only [bindAnyTypes]
      refine ⟨by simp, fun b' h => ?_⟩
      simp at h; subst h
      exact ⟨hb, extends_refl _, by simp [FTy.matchLoose]⟩
  | .map n p q, t, b, hb, ht => by
    cases t with
    | map n' v' t u =>
      simp only [bindAnyTypes]
      obtain ⟨h1, h2⟩ := bindAnyTypes_spec p t b hb (plan_argument (argument_map ht).1)
      have h3 := fun b' hb' => bindAnyTypes_spec q u b' hb' (plan_argument (argument_map ht).2)
      refine ⟨Res.bind_ne_panic h1 (fun b1 hb1 => (h3 b1 (h2 b1 hb1).1).1), fun b' h => ?_⟩
      rw [Res.bind_eq_ok] at h
      obtain ⟨b1, e1, e2⟩ := h
      obtain ⟨g1, x1, s1⟩ := h2 b1 e1
      obtain ⟨g2, x2, s2⟩ := (h3 b1 g1).2 b' e2
      refine ⟨g2, fun y w hy => x2 y w (x1 y w hy), ?_⟩
      intro hp hm x s' ha hx
      simp only [FTy.Plain] at hp
      simp only [FTy.matchLoose, Bool.and_eq_true] at hm
      cases ha with
      | mapKey _ _ _ _ _ _ _ _ ha =>
        obtain ⟨e, he, hs⟩ := s1 hp.1 hm.1 x s' ha hx
        exact ⟨e, x2 _ _ he, hs⟩
      | mapValue _ _ _ _ _ _ _ _ ha => exact s2 hp.2 hm.2 x s' ha hx
    | _ =>
      simp only [bindAnyTypes]
      refine ⟨by simp, fun b' h => ?_⟩
      simp at h; subst h
      exact ⟨hb, extends_refl _, by simp [FTy.matchLoose]⟩
  | .struct n ps, t, b, hb, ht => by
    cases t with
    | struct n' v' ts =>
      simp only [bindAnyTypes]
      split
      · rename_i hl
        obtain ⟨h1, h2⟩ := bindAnyTypesList_spec ps ts b hb
          (fun t h => plan_argument (argument_struct ht t h))
        refine ⟨h1, fun b' h => ?_⟩
        obtain ⟨g, e, s⟩ := h2 b' h
        refine ⟨g, e, ?_⟩
        intro hp hm x s' ha hx
        simp only [FTy.Plain] at hp
        simp only [FTy.matchLoose, Bool.and_eq_true] at hm
        cases ha with
        | struct _ _ _ _ _ _ i p t hp' ht' ha =>
          exact s i p t hp' ht' (plainList_get hp i p hp') (matchLooseList_get hm.2 i p t hp' ht')
            x s' ha hx
      · rename_i hl
        refine ⟨by simp, fun b' h => ?_⟩
        simp at h; subst h
        refine ⟨hb, extends_refl _, ?_⟩
        intro _ hm
        simp only [FTy.matchLoose, Bool.and_eq_true, decide_eq_true_eq] at hm
        exact absurd hm.1.symm hl
    | _ =>
      simp only [bindAnyTypes]
      refine ⟨by simp, fun b' h => ?_⟩
      simp at h; subst h
      exact ⟨hb, extends_refl _, by simp [FTy.matchLoose]⟩
  | .prim k n v, t, b, hb, ht => by
    simp only [bindAnyTypes]
    exact ⟨by simp, fun b' h => by
      simp at h; subst h; exact ⟨hb, extends_refl _, fun _ _ x s ha => by cases ha⟩⟩
  | .enum .., t, b, hb, ht => by
    simp only [bindAnyTypes]
    exact ⟨by simp, fun b' h => by
      simp at h; subst h; exact ⟨hb, extends_refl _, fun _ _ x s ha => by cases ha⟩⟩
  | .single .., t, b, hb, ht => by
    simp only [bindAnyTypes]
    exact ⟨by simp, fun b' h => by
      simp at h; subst h; exact ⟨hb, extends_refl _, fun _ _ x s ha => by cases ha⟩⟩
  | .decimal .., t, b, hb, ht => by
    simp only [bindAnyTypes]
    exact ⟨by simp, fun b' h => by
      simp at h; subst h; exact ⟨hb, extends_refl _, fun _ _ x s ha => by cases ha⟩⟩
  | .func .., t, b, hb, ht => by
    simp only [bindAnyTypes]
    exact ⟨by simp, fun b' h => by
      simp at h; subst h; exact ⟨hb, extends_refl _, fun hp => by simp [FTy.Plain] at hp⟩⟩
  | .udt .., t, b, hb, ht => by
    simp only [bindAnyTypes]
    exact ⟨by simp, fun b' h => by
      simp at h; subst h; exact ⟨hb, extends_refl _, fun hp => by simp [FTy.Plain] at hp⟩⟩
  | .derivation .., t, b, hb, ht => by
    simp only [bindAnyTypes]
    exact ⟨by simp, fun b' h => by
      simp at h; subst h; exact ⟨hb, extends_refl _, fun hp => by simp [FTy.Plain] at hp⟩⟩
theorem bindAnyTypesList_spec : ∀ (ps : List FTy) (ts : List Ty) (b : GoMap String Ty),
    GoodBindings b → (∀ t ∈ ts, t.Argument) → bindAnyTypesList ps ts b ≠ .panic ∧
      ∀ b', bindAnyTypesList ps ts b = .ok b' → BindsList ps ts b b'
  | [], ts, b, hb, ht => by
    simp only [bindAnyTypesList]
    exact ⟨by simp, fun b' h => by
      simp at h; subst h
      exact ⟨hb, extends_refl _, fun i p t hp => by simp at hp⟩⟩
  | p :: ps, [], b, hb, ht => by
    simp only [bindAnyTypesList]
    exact ⟨by simp, fun b' h => by
      simp at h; subst h
      exact ⟨hb, extends_refl _, fun i p t _ ht => by simp at ht⟩⟩
  | p :: ps, t :: ts, b, hb, ht => by
    simp only [bindAnyTypesList]
    obtain ⟨h1, h2⟩ := bindAnyTypes_spec p t b hb (ht t (by simp))
    have h3 := fun b' hb' => bindAnyTypesList_spec ps ts b' hb' (fun u hu => ht u (by simp [hu]))
    refine ⟨Res.bind_ne_panic h1 (fun b1 hb1 => (h3 b1 (h2 b1 hb1).1).1), fun b' h => ?_⟩
    rw [Res.bind_eq_ok] at h
    obtain ⟨b1, e1, e2⟩ := h
    obtain ⟨g1, x1, s1⟩ := h2 b1 e1
    obtain ⟨g2, x2, s2⟩ := (h3 b1 g1).2 b' e2
    refine ⟨g2, fun y w hy => x2 y w (x1 y w hy), ?_⟩
    intro i q u hq hu hp hm x s' ha hx
    cases i with
    | zero =>
      simp at hq hu; subst hq hu
      obtain ⟨e, he, hs⟩ := s1 hp hm x s' ha hx
      exact ⟨e, x2 _ _ he, hs⟩
    | succ i => exact s2 i q u (by simpa using hq) (by simpa using hu) hp hm x s' ha hx
end

theorem goodBindings_empty : GoodBindings .empty := fun x t h => by simp at h

theorem expand_get {defs ds : List FTy} {args : List Ty} {variadic : Option Variadic}
    (h : expandParams defs args variadic = .ok ds)
    (hl : variadic = none → args.length = defs.length) (i : Nat) (hi : i < args.length) :
    ds[i]? = paramFor defs i := by
  unfold expandParams at h
  split at h
  · rename_i hc
    simp only [Bool.and_eq_true, decide_eq_true_eq] at hc
    cases hg : defs.getLast? with
    | none => simp [hg] at h
    | some last =>
      simp only [hg, Res.ok.injEq] at h
      subst h
      have hne : defs ≠ [] := by intro h; simp [h] at hg
      have hpos : 0 < defs.length := List.length_pos_of_ne_nil hne
      unfold paramFor
      by_cases h1 : i < defs.length - 1
      · rw [List.getElem?_append_left (by simpa using h1), List.getElem?_dropLast]
        simp [h1, show i < defs.length by omega]
      · rw [List.getElem?_append_right (by simp; omega), List.getElem?_replicate]
        rw [if_pos (by simp; omega)]
        split
        · have : i = defs.length - 1 := by omega
          rw [this, ← List.getLast?_eq_getElem?, hg]
        · exact hg.symm
  · rename_i hc
    simp only [Res.ok.injEq] at h
    subst h
    unfold paramFor
    rw [if_pos]
    cases variadic with
    | none => rw [← hl rfl]; exact hi
    | some v => simp at hc; omega

theorem expand_ne_panic {defs : List FTy} {args : List Ty} {variadic : Option Variadic}
    (h : variadic.isSome → defs ≠ []) : expandParams defs args variadic ≠ .panic := by
  unfold expandParams
  split
  · rename_i hc
    simp only [Bool.and_eq_true] at hc
    cases hg : defs.getLast? with
    | none => exact absurd (List.getLast?_eq_none_iff.1 hg) (h hc.1)
    | some last => simp
  · simp

theorem expand_total {defs : List FTy} {args : List Ty} {variadic : Option Variadic}
    (h : variadic.isSome → defs ≠ []) : ∃ ds, expandParams defs args variadic = .ok ds := by
  have h1 := expand_ne_panic (args := args) h
  unfold expandParams at *
  split
  · cases hg : defs.getLast? with
    | none => simp_all
    | some last => exact ⟨_, rfl⟩
  · exact ⟨_, rfl⟩

/-! ### Shared integer parameters -/

mutual
theorem leaves_subset : ∀ (p : FTy) (l : List String), p.leaves = .ok l → ∀ x ∈ l, x ∈ p.intNames
  | .prim .., l, h, x, hx => by simp [FTy.leaves] at h; subst h; simp at hx
  | .any .., l, h, x, hx => by simp [FTy.leaves] at h; subst h; simp at hx
  | .enum .., l, h, x, hx => by simp [FTy.leaves] at h; subst h; simp at hx
  | .single _ _ p, l, h, x, hx => by
    simp [FTy.leaves] at h; subst h
    split at hx <;> simp_all [FTy.intNames]
  | .decimal _ p s, l, h, x, hx => by
    simp only [FTy.leaves, Res.ok.injEq] at h; subst h
    split at hx <;> simp_all [FTy.intNames]
  | .list _ t, l, h, x, hx => by
    simp only [FTy.leaves] at h
    simpa [FTy.intNames] using leaves_subset t l h x hx
  | .map _ k v, l, h, x, hx => by
    simp only [FTy.leaves, Res.bind_eq_ok] at h
    obtain ⟨a, ha, b, hb, h⟩ := h
    simp at h; subst h
    simp only [FTy.intNames, List.mem_append] at *
    exact hx.imp (leaves_subset k a ha x) (leaves_subset v b hb x)
  | .struct _ ts, l, h, x, hx => by
    simp only [FTy.leaves] at h
    simpa [FTy.intNames] using leavesList_subset ts l h x hx
  | .func _ ps r, l, h, x, hx => by
    simp only [FTy.leaves, Res.bind_eq_ok] at h
    obtain ⟨a, ha, b, hb, h⟩ := h
    simp at h; subst h
    simp only [FTy.intNames, List.mem_append] at *
    exact hx.imp (leavesList_subset ps a ha x) (leaves_subset r b hb x)
  | .udt _ _ _ ps, l, h, x, hx => by
    simp only [FTy.leaves] at h
    split at h <;> simp at h
    subst h; simp at hx
  | .derivation _ t, l, h, x, hx => by
    simp only [FTy.leaves] at h
    simpa [FTy.intNames] using leaves_subset t l h x hx
theorem leavesList_subset : ∀ (ps : List FTy) (l : List String), FTy.leavesList ps = .ok l →
    ∀ x ∈ l, x ∈ FTy.intNamesList ps
  | [], l, h, x, hx => by simp [FTy.leavesList] at h; subst h; simp at hx
  | p :: ps, l, h, x, hx => by
    simp only [FTy.leavesList, Res.bind_eq_ok] at h
    obtain ⟨a, ha, b, hb, h⟩ := h
    simp at h; subst h
    simp only [FTy.intNamesList, List.mem_append] at *
    exact hx.imp (leaves_subset p a ha x) (leavesList_subset ps b hb x)
end

theorem hasSync_false : ∀ (ps : List FTy) (seen : List String) (b : Bool),
    ps.Pairwise (fun p q => ∀ x ∈ p.intNames, x ∉ q.intNames) →
    (∀ p ∈ ps, ∀ x ∈ seen, x ∉ p.intNames) → hasSyncParams seen ps = .ok b → b = false
  | [], _, b, _, _, h => by simp [hasSyncParams] at h; exact h
  | p :: ps, seen, b, hp, hs, h => by
    simp only [hasSyncParams, Res.bind_eq_ok] at h
    obtain ⟨l, hl, h⟩ := h
    rw [List.pairwise_cons] at hp
    split at h
    · rename_i hc
      simp only [List.any_eq_true, List.contains_iff_mem] at hc
      obtain ⟨x, h1, h2⟩ := hc
      exact absurd (leaves_subset p l hl x h1) (hs p (by simp) x h2)
    · refine hasSync_false ps _ b hp.2 ?_ h
      intro q hq x hx
      rcases List.mem_append.1 hx with hx | hx
      · exact hp.1 q hq x (leaves_subset p l hl x hx)
      · exact hs q (by simp [hq]) x hx

theorem defs_pairwise : ∀ {params : List FuncParam} {defs : List FTy},
    List.Forall₂ (fun p d => p.def? = some d) params defs →
    params.Pairwise (fun p q => ∀ x ∈ p.intNames, x ∉ q.intNames) →
    defs.Pairwise (fun p q => ∀ x ∈ p.intNames, x ∉ q.intNames)
  | _, _, .nil, _ => .nil
  | p :: ps, d :: ds, .cons h hs, hp => by
    rw [List.pairwise_cons] at hp ⊢
    have hd : ∀ (p : FuncParam) (d : FTy), p.def? = some d → ∀ x ∈ d.intNames, x ∈ p.intNames := by
      intro p d h x hx
      cases p <;> simp [FuncParam.def?] at h
      · subst h; simp [commonEnum, FTy.intNames] at hx
      · subst h; exact hx
    refine ⟨?_, defs_pairwise hs hp.2⟩
    intro e he x hx hx'
    obtain ⟨i, hi⟩ := List.mem_iff_getElem?.1 he
    obtain ⟨q, hq, hqe⟩ := forall₂_get' hs i e hi
    exact hp.1 q (List.mem_of_getElem? hq) x (hd p d h x hx) (hd q e hqe x hx')

/-! ### Completeness -/

/-- all bindings are allowed by `R` -/
def Within (R : String → Ty → Prop) (b : GoMap String Ty) : Prop := ∀ x t, b.get x = some t → R x t

theorem bindAny_within {R : String → Ty → Prop} (hR : ∀ x s s', R x s → R x s' → s.SameBut s')
    (hA : ∀ x s, R x s → s.Argument)
    {x : String} {t : Ty} {b : GoMap String Ty} (hb : Within R b) (ht : x ≠ "any" → R x t) :
    ∃ b', bindAny x t b = .ok b' ∧ Within R b' := by
  unfold bindAny
  split
  · exact ⟨b, rfl, hb⟩
  · rename_i hx
    cases hg : b.get x with
    | none =>
      refine ⟨_, rfl, ?_⟩
      intro y u hu
      rw [GoMap.get_set] at hu
      split at hu
      · rename_i hy; simp at hu; subst hu hy; exact ht hx
      · exact hb y u hu
    | some e =>
      obtain ⟨r, hr, hs⟩ := argument_equals NullabilityRequired (hA _ _ (hb x e hg)) (hA _ _ (ht hx))
      have := hs.2 (hR _ _ _ (hb x e hg) (ht hx))
      subst this
      simp only [hr, Res.ok_bind, if_true]
      exact ⟨b, rfl, hb⟩

mutual
theorem bindAnyTypes_within {R : String → Ty → Prop} (hR : ∀ x s s', R x s → R x s' → s.SameBut s')
    (hA : ∀ x s, R x s → s.Argument) :
    ∀ (p : FTy) (t : Ty) (b : GoMap String Ty), Within R b →
      (∀ x s, AnyAt x p t s → x ≠ "any" → R x s) → ∃ b', bindAnyTypes p t b = .ok b' ∧ Within R b'
  | .any n y, t, b, hb, h => by
    simp only [bindAnyTypes]
    exact bindAny_within hR hA hb (fun hx => h y t (.here n t) hx)
  | .list n p, t, b, hb, h => by
    cases t with
    | list n' v' t =>
      simp only [bindAnyTypes]
      exact bindAnyTypes_within hR hA p t b hb (fun x s ha => h x s (.list n n' v' p t s ha))
    | _ => exact ⟨b, rfl, hb⟩
  | .map n p q, t, b, hb, h => by
    cases t with
    | map n' v' t u =>
      simp only [bindAnyTypes]
      obtain ⟨b1, e1, h1⟩ := bindAnyTypes_within hR hA p t b hb
        (fun x s ha => h x s (.mapKey n n' v' p q t u s ha))
      simp only [e1, Res.ok_bind]
      exact bindAnyTypes_within hR hA q u b1 h1
        (fun x s ha => h x s (.mapValue n n' v' p q t u s ha))
    | _ => exact ⟨b, rfl, hb⟩
  | .struct n ps, t, b, hb, h => by
    cases t with
    | struct n' v' ts =>
      simp only [bindAnyTypes]
      split
      · exact bindAnyTypesList_within hR hA ps ts b hb
          (fun i p t hp ht x s ha => h x s (.struct n n' v' ps ts s i p t hp ht ha))
      · exact ⟨b, rfl, hb⟩
    | _ => exact ⟨b, rfl, hb⟩
  | .prim .., t, b, hb, h => ⟨b, by simp [bindAnyTypes], hb⟩
  | .enum .., t, b, hb, h => ⟨b, by simp [bindAnyTypes], hb⟩
  | .single .., t, b, hb, h => ⟨b, by simp [bindAnyTypes], hb⟩
  | .decimal .., t, b, hb, h => ⟨b, by simp [bindAnyTypes], hb⟩
  | .func .., t, b, hb, h => ⟨b, by simp [bindAnyTypes], hb⟩
  | .udt .., t, b, hb, h => ⟨b, by simp [bindAnyTypes], hb⟩
  | .derivation .., t, b, hb, h => ⟨b, by simp [bindAnyTypes], hb⟩
theorem bindAnyTypesList_within {R : String → Ty → Prop}
    (hR : ∀ x s s', R x s → R x s' → s.SameBut s') (hA : ∀ x s, R x s → s.Argument) :
    ∀ (ps : List FTy) (ts : List Ty) (b : GoMap String Ty), Within R b →
      (∀ (i : Nat) (p : FTy) (t : Ty), ps[i]? = some p → ts[i]? = some t →
        ∀ x s, AnyAt x p t s → x ≠ "any" → R x s) →
      ∃ b', bindAnyTypesList ps ts b = .ok b' ∧ Within R b'
  | [], ts, b, hb, h => ⟨b, by simp [bindAnyTypesList], hb⟩
  | p :: ps, [], b, hb, h => ⟨b, by simp [bindAnyTypesList], hb⟩
  | p :: ps, t :: ts, b, hb, h => by
    simp only [bindAnyTypesList]
    obtain ⟨b1, e1, h1⟩ := bindAnyTypes_within hR hA p t b hb (h 0 p t (by simp) (by simp))
    simp only [e1, Res.ok_bind]
    exact bindAnyTypesList_within hR hA ps ts b1 h1
      (fun i q u hq hu => h (i + 1) q u (by simpa using hq) (by simpa using hu))
end

theorem within_empty (R : String → Ty → Prop) : Within R .empty := fun x t h => by simp at h

/-- the parts of an argument are argument types -/
theorem anyAt_argument {x : String} {p : FTy} {t s : Ty} (h : AnyAt x p t s) (ht : t.Argument) :
    s.Argument := by
  have planParam : ∀ (ps : List TParam) (i : Nat) (t : Ty), TParam.PlanTypeList ps →
      ps[i]? = some (.dataType t) → t.PlanType := by
    intro ps
    induction ps with
    | nil => intro i t _ h; simp at h
    | cons q ps ih =>
      intro i t hp h
      cases i with
      | zero => simp at h; subst h; simp [TParam.PlanTypeList] at hp; exact hp.1
      | succ i =>
        refine ih i t ?_ (by simpa using h)
        cases q <;> simp_all [TParam.PlanTypeList]
  induction h with
  | here => exact ht
  | list _ _ _ _ _ _ _ ih => exact ih (plan_argument (argument_list ht))
  | mapKey _ _ _ _ _ _ _ _ _ ih => exact ih (plan_argument (argument_map ht).1)
  | mapValue _ _ _ _ _ _ _ _ _ ih => exact ih (plan_argument (argument_map ht).2)
  | struct _ _ _ _ _ _ _ _ _ _ ht' _ ih =>
    exact ih (plan_argument (argument_struct ht _ (List.mem_of_getElem? ht')))
  | funcParam _ _ _ _ _ _ _ _ _ _ _ ht' _ ih =>
    rcases ht with ht | ht
    · simp only [Ty.PlanType] at ht
      exact ih (plan_argument (planList_mem ht.1 _ (List.mem_of_getElem? ht')))
    · cases ht
  | funcReturn _ _ _ _ _ _ _ _ ih =>
    rcases ht with ht | ht
    · simp only [Ty.PlanType] at ht
      exact ih (plan_argument ht.2)
    · cases ht
  | udt _ _ _ _ _ _ _ _ _ i _ t _ ht' _ ih =>
    rcases ht with ht | ht
    · simp only [Ty.PlanType] at ht
      exact ih (plan_argument (planParam _ i t ht ht'))
    · cases ht
  | derivation _ _ _ _ _ ih => exact ih ht

theorem anyAt_touched {x : String} {p : FTy} {t t' s : Ty} (h : AnyAt x p t s) (ht : Touched t t') :
    ∃ s', AnyAt x p t' s' ∧ s.SameBut s' := by
  induction h with
  | here n t => exact ⟨t', .here n t', touched_sameBut ht⟩
  | derivation as p t s h ih =>
    obtain ⟨s', h1, h2⟩ := ih ht
    exact ⟨s', .derivation as p t' s' h1, h2⟩
  | list n n' v' p t s h =>
    have := touched_id ht (by simp [Ty.IsDayInterval])
    subst this
    exact ⟨s, .list n n' v' p t s h, sameBut_refl s⟩
  | mapKey n n' v' p q t u s h =>
    have := touched_id ht (by simp [Ty.IsDayInterval])
    subst this
    exact ⟨s, .mapKey n n' v' p q t u s h, sameBut_refl s⟩
  | mapValue n n' v' p q t u s h =>
    have := touched_id ht (by simp [Ty.IsDayInterval])
    subst this
    exact ⟨s, .mapValue n n' v' p q t u s h, sameBut_refl s⟩
  | struct n n' v' ps ts s i p t hp hq h =>
    have := touched_id ht (by simp [Ty.IsDayInterval])
    subst this
    exact ⟨s, .struct n n' v' ps ts s i p t hp hq h, sameBut_refl s⟩
  | funcParam n n' ps ts r u s i p t hp hq h =>
    have := touched_id ht (by simp [Ty.IsDayInterval])
    subst this
    exact ⟨s, .funcParam n n' ps ts r u s i p t hp hq h, sameBut_refl s⟩
  | funcReturn n n' ps ts r u s h =>
    have := touched_id ht (by simp [Ty.IsDayInterval])
    subst this
    exact ⟨s, .funcReturn n n' ps ts r u s h, sameBut_refl s⟩
  | udt n v y n' v' ref ps ts s i p t hp hq h =>
    have := touched_id ht (by simp [Ty.IsDayInterval])
    subst this
    exact ⟨s, .udt n v y n' v' ref ps ts s i p t hp hq h, sameBut_refl s⟩

/-! ### Consistent variadic arguments -/

theorem touched_symm {a b : Ty} (h : Touched a b) : Touched b a := by
  obtain ⟨n, rfl⟩ := h
  refine ⟨a.nullability, ?_⟩
  cases a with
  | prec k n v p => cases k <;> rfl
  | _ => rfl

theorem equals_sameBut {a b : Ty} (ha : a.Argument) (hb : b.Argument) :
    Decides (Ty.equals a (b.withNullability a.nullability)) (a.SameBut b) := by
  rcases ha with ha | rfl
  · obtain ⟨r, h1, h2⟩ := equals_spec a (b.withNullability a.nullability) ha
    refine ⟨r, h1, h2.trans ?_⟩
    have : a.erase = (a.withNullability a.nullability).erase := by
      cases a <;> simp_all [Ty.withNullability, Ty.nullability, Ty.erase, Ty.PlanType]
    rw [this]
    exact wn_erase a b _ _
  · rcases hb with hb | rfl
    · refine ⟨false, ?_, ?_⟩
      · cases b <;> simp_all [Ty.equals, Ty.withNullability, Ty.PlanType]
      · cases b <;> simp_all [Ty.SameBut, Ty.Same, Ty.erase, Ty.withNullability, Ty.PlanType]
    · exact ⟨true, by simp [Ty.equals, Ty.withNullability, Ty.nullability],
        by simp [Ty.SameBut, Ty.Same]⟩

theorem consistentFrom_spec : ∀ (rest : List Ty) (a : Ty), a.Argument → (∀ t ∈ rest, t.Argument) →
    ∃ b rest', consistentFrom a rest = .ok (b, rest') ∧ (b = true ↔ ∀ t ∈ rest, a.SameBut t)
  | [], a, _, _ => ⟨true, [], rfl, by simp⟩
  | c :: rest, a, ha, h => by
    obtain ⟨s, hs, hd⟩ := equals_sameBut ha (h c (by simp))
    simp only [consistentFrom, hs, Res.ok_bind]
    cases s with
    | false =>
      refine ⟨false, _, rfl, ?_⟩
      simp only [Bool.false_eq_true, false_iff] at hd ⊢
      intro hall
      exact hd (hall c (by simp))
    | true =>
      have hac := hd.1 rfl
      have htc : Touched c (c.afterWithNullability a.nullability) := ⟨_, rfl⟩
      obtain ⟨b, rest', h1, h2⟩ := consistentFrom_spec rest (c.afterWithNullability a.nullability)
        (touched_argument htc (h c (by simp))) (fun t ht => h t (by simp [ht]))
      refine ⟨b, _, by simp only [h1, if_true, Res.ok_bind]; rfl, h2.trans ?_⟩
      have hc := touched_sameBut htc
      constructor
      · intro hall t ht
        rcases List.mem_cons.1 ht with rfl | ht
        · exact hac
        · exact sameBut_trans hac (sameBut_trans hc (hall t ht))
      · intro hall t ht
        exact sameBut_trans (sameBut_symm hc)
          (sameBut_trans (sameBut_symm hac) (hall t (by simp [ht])))

/-- which lists of variadic arguments pass -/
theorem validateVariadic_spec (v : Variadic) (args : List Ty) (h : ∀ t ∈ args, t.Argument) :
    ∃ b args', validateVariadic v args = .ok (b, args') ∧ (b = true ↔ v.validCount args.length = true ∧
      (v.consistent = true → ∀ a rest, args.drop (max (v.min - 1) 0).toNat = a :: rest →
        ∀ t ∈ rest, a.SameBut t)) := by
  unfold validateVariadic
  cases hc : v.validCount args.length with
  | false => exact ⟨false, args, by simp, by simp⟩
  | true =>
    simp only [Bool.not_true, Bool.false_eq_true, if_false]
    cases hk : v.consistent with
    | false => exact ⟨true, args, by simp, by simp⟩
    | true =>
      simp only [if_true]
      cases hd : args.drop (max (v.min - 1) 0).toNat with
      | nil => exact ⟨true, args, rfl, by simp⟩
      | cons a rest =>
        have hm : ∀ t ∈ a :: rest, t.Argument := fun t ht => h t (by
          rw [← hd] at ht; exact List.mem_of_mem_drop ht)
        obtain ⟨b, rest', h1, h2⟩ := consistentFrom_spec rest a (hm a (by simp))
          (fun t ht => hm t (by simp [ht]))
        refine ⟨b, _, by simp only [h1, Res.ok_bind]; rfl, h2.trans ?_⟩
        simp

theorem funcDefs_total : ∀ params : List FuncParam, (∀ p ∈ params, p.def?.isSome) →
    ∃ defs, funcDefs params = .ok defs
  | [], _ => ⟨[], rfl⟩
  | .value t :: ps, h => by
    obtain ⟨ds, hd⟩ := funcDefs_total ps (fun p hp => h p (by simp [hp]))
    simp [funcDefs, hd]
  | .enum x os :: ps, h => by
    obtain ⟨ds, hd⟩ := funcDefs_total ps (fun p hp => h p (by simp [hp]))
    simp [funcDefs, hd]
  | .type t :: ps, h => by simpa [FuncParam.def?] using h (.type t) (by simp)
  | .missing :: ps, h => by simpa [FuncParam.def?] using h .missing (by simp)

theorem matchAt_ok {t : Ty} {pos : Nat} {nh : NullHandling} {defs : List FTy}
    {variadic : Option Variadic} {p : FTy} (hn : variadic = none → pos < defs.length)
    (hv : ∀ v, variadic = some v → v.max = 0 ∨ pos ≤ v.max) (hp : paramFor defs pos = some p)
    (ha : accepts nh p t = true) : matchArgumentAtCommon t pos nh defs variadic = .ok true := by
  have key : (if pos < defs.length then Res.index defs pos
      else Res.index defs ((defs.length : Int) - 1)) = .ok p := by
    unfold paramFor at hp
    split at hp
    · rename_i hpos
      rw [if_pos hpos, Res.index_eq_ok]
      exact ⟨by omega, by simpa using hp⟩
    · rename_i hpos
      rw [if_neg hpos, index_last]
      exact hp
  unfold matchArgumentAtCommon
  cases variadic with
  | none =>
    have h1 : ¬ (defs.length ≤ pos) := by have := hn rfl; omega
    simp only [key, h1, decide_false, Bool.false_eq_true, if_false, Res.ok_bind]
    cases nh <;> simp_all [accepts]
  | some v =>
    have h1 : v.validPosition pos = true := by
      have := hv v rfl
      simp only [Variadic.validPosition, Bool.and_eq_true, decide_eq_true_eq, Bool.or_eq_true]
      omega
    simp only [key, h1, Bool.not_true, Bool.false_eq_true, if_false, Res.ok_bind]
    cases nh <;> simp_all [accepts]

theorem matchEach_ok {nh : NullHandling} {defs : List FTy} {variadic : Option Variadic} :
    ∀ (args : List Ty) (pos : Nat), (variadic = none → pos + args.length ≤ defs.length) →
      (∀ v, variadic = some v → v.max = 0 ∨ ((pos + args.length : Nat) : Int) ≤ v.max + 1) →
      (∀ (i : Nat) (t : Ty), args[i]? = some t →
        ∃ p, paramFor defs (pos + i) = some p ∧ accepts nh p t = true) →
      matchEach nh defs variadic pos args = .ok true
  | [], pos, _, _, _ => rfl
  | t :: ts, pos, hn, hv, h => by
    obtain ⟨p, hp, ha⟩ := h 0 t (by simp)
    have h1 := matchAt_ok (t := t) (pos := pos) (nh := nh) (defs := defs)
      (fun e => by have := hn e; simp at this; omega)
      (fun v e => by have := hv v e; simp only [List.length_cons] at this; omega) (by simpa using hp) ha
    simp only [matchEach, h1, Res.ok_bind, if_true]
    refine matchEach_ok ts (pos + 1) (fun e => by have := hn e; simp at this ⊢; omega)
      (fun v e => by have := hv v e; simp only [List.length_cons] at this; omega) ?_
    intro i u hu
    have := h (i + 1) u (by simpa using hu)
    simpa [Nat.add_assoc, Nat.add_comm 1 i] using this

/-! ### Untouched arguments -/

theorem noDay_touched {a b : Ty} (h : Touched a b) (ha : a.NoDay) : b = a := by
  refine touched_id h ?_
  cases a <;> simp_all [Ty.NoDay, Ty.IsDayInterval]

theorem noDayList_mem : ∀ {ts : List Ty}, Ty.NoDayList ts ↔ ∀ t ∈ ts, t.NoDay
  | [] => by simp [Ty.NoDayList]
  | t :: ts => by simp [Ty.NoDayList, noDayList_mem (ts := ts)]

theorem touched_list_id : ∀ {ts us : List Ty}, List.Forall₂ Touched ts us → Ty.NoDayList ts → us = ts
  | _, _, .nil, _ => rfl
  | _, _, .cons h hs, hn => by
    simp only [Ty.NoDayList] at hn
    rw [noDay_touched h hn.1, touched_list_id hs hn.2]

mutual
theorem touchAny_id (uses : List String) : ∀ (p : FTy) (t : Ty), t.NoDay → touchAny uses p t = t
  | .any n x, t, h => by
    simp only [touchAny]
    split
    · exact noDay_touched ⟨_, rfl⟩ h
    · rfl
  | .list n p, t, h => by
    cases t <;> simp only [touchAny]
    rename_i t
    rw [touchAny_id uses p t (by simpa [Ty.NoDay] using h)]
  | .map n p q, t, h => by
    cases t <;> simp only [touchAny]
    rename_i t u
    simp only [Ty.NoDay] at h
    rw [touchAny_id uses p t h.1, touchAny_id uses q u h.2]
  | .struct n ps, t, h => by
    cases t <;> simp only [touchAny]
    rename_i ts
    simp only [Ty.NoDay] at h
    rw [touchAnyList_id uses ps ts h]
    split <;> rfl
  | .prim .., t, h => by simp [touchAny]
  | .enum .., t, h => by simp [touchAny]
  | .single .., t, h => by simp [touchAny]
  | .decimal .., t, h => by simp [touchAny]
  | .func .., t, h => by simp [touchAny]
  | .udt .., t, h => by simp [touchAny]
  | .derivation .., t, h => by simp [touchAny]
theorem touchAnyList_id (uses : List String) : ∀ (ps : List FTy) (ts : List Ty), Ty.NoDayList ts →
    touchAnyList uses ps ts = ts
  | [], ts, h => by simp [touchAnyList]
  | p :: ps, [], h => by simp [touchAnyList]
  | p :: ps, t :: ts, h => by
    simp only [Ty.NoDayList] at h
    simp only [touchAnyList]
    rw [touchAny_id uses p t h.1, touchAnyList_id uses ps ts h.2]
end

theorem matchCount_touched {params : List FuncParam} {variadic : Option Variadic}
    {args args1 : List Ty} {b : Bool} (h : matchCount params variadic args = .ok (b, args1)) :
    List.Forall₂ Touched args args1 := by
  unfold matchCount at h
  cases variadic with
  | none => simp at h; obtain ⟨_, rfl⟩ := h; exact touched_list_refl _
  | some v =>
    simp only at h
    split at h
    · simp at h
    · rw [Res.bind_eq_ok] at h
      obtain ⟨⟨b', rest'⟩, h3, h4⟩ := h
      simp at h4
      obtain ⟨rfl, rfl⟩ := h4
      conv => arg 2; rw [← List.take_append_drop (params.length - 1) args]
      exact List.rel_append (touched_list_refl _) (validateVariadic_ok h3).1

/-! ### Nullability of the arguments -/

theorem validateTypes_mirror : ∀ {ps : List FuncParam} {ts : List Ty} {b : Bool},
    validateTypes .mirror ps ts = .ok b → (b = true ↔ ∀ (i : Nat) (p : FuncParam) (t : Ty),
      ps[i]? = some p → ts[i]? = some t → p.declared.isSome → t.nullability = NullabilityRequired)
  | [], ts, b, h => by simp [validateTypes] at h; subst h; simp
  | p :: ps, [], b, h => by simp [validateTypes] at h; subst h; simp
  | p :: ps, t :: ts, b, h => by
    simp only [validateTypes, Res.bind_eq_ok] at h
    obtain ⟨c, h1, d, h2, h3⟩ := h
    simp at h3; subst h3
    have ih := validateTypes_mirror h2
    have hc : c = true ↔ (p.declared.isSome → t.nullability = NullabilityRequired) := by
      cases p with
      | enum =>
        simp only [validateType] at h1
        split at h1 <;> simp at h1
        subst h1; simp [FuncParam.declared]
      | value => simp [validateType] at h1; subst h1; simp [FuncParam.declared]
      | type => simp [validateType] at h1
      | missing => simp [validateType] at h1; subst h1; simp [FuncParam.declared]
    rw [Bool.and_eq_true, hc, ih]
    constructor
    · rintro ⟨ha, hb⟩ i q u hq hu
      cases i with
      | zero => simp at hq hu; subst hq hu; exact ha
      | succ i => exact hb i q u (by simpa using hq) (by simpa using hu)
    · intro hall
      exact ⟨hall 0 p t (by simp) (by simp), fun i q u hq hu =>
        hall (i + 1) q u (by simpa using hq) (by simpa using hu)⟩

theorem validateRest_mirror {last : FuncParam} : ∀ {ts : List Ty} {b : Bool},
    validateRest .mirror last ts = .ok b → (b = true ↔ ∀ t ∈ ts, last.declared.isSome →
      t.nullability = NullabilityRequired)
  | [], b, h => by simp [validateRest] at h; subst h; simp
  | t :: ts, b, h => by
    simp only [validateRest, Res.bind_eq_ok] at h
    obtain ⟨c, h1, d, h2, h3⟩ := h
    simp at h3; subst h3
    have ih := validateRest_mirror h2
    have hc : c = true ↔ (last.declared.isSome → t.nullability = NullabilityRequired) := by
      cases last with
      | enum =>
        simp only [validateType] at h1
        split at h1 <;> simp at h1
        subst h1; simp [FuncParam.declared]
      | value => simp [validateType] at h1; subst h1; simp [FuncParam.declared]
      | type => simp [validateType] at h1
      | missing => simp [validateType] at h1; subst h1; simp [FuncParam.declared]
    rw [Bool.and_eq_true, hc, ih]
    simp

/-! ### Integer parameters -/

/-- Every binding of `b` is still in `b'`. -/
def ExtendsG (b b' : GoMap String GVal) : Prop := ∀ x t, b.get x = some t → b'.get x = some t

theorem same_eq {a b : GVal} (h : a.same b = true) : a = b := by
  cases a <;> cases b <;> simp_all [GVal.same]

theorem bindNames_spec : ∀ (ps : List AbsParam) (vs : List GVal) (st st' : GoMap String GVal),
    bindNames ps vs st = .ok st' → ExtendsG st st' ∧ ∀ (i : Nat) x v, ps[i]? = some (.int (.var x)) →
      vs[i]? = some v → st'.get x = some v
  | [], vs, st, st', h => by
    cases vs <;> simp [bindNames] at h <;> subst h <;> exact ⟨fun _ _ h => h, by simp⟩
  | p :: ps, [], st, st', h => by
    have : bindNames (p :: ps) [] st = .ok st := by
      cases p with
      | int q => cases q <;> rfl
      | _ => rfl
    rw [this] at h
    simp at h; subst h
    exact ⟨fun _ _ h => h, by simp⟩
  | p :: ps, v :: vs, st, st', h => by
    have skip : bindNames ps vs st = .ok st' → (∀ x, p ≠ .int (.var x)) →
        ExtendsG st st' ∧ ∀ (i : Nat) x w, (p :: ps)[i]? = some (.int (.var x)) →
          (v :: vs)[i]? = some w → st'.get x = some w := by
      intro h hp
      obtain ⟨h1, h2⟩ := bindNames_spec ps vs st st' h
      refine ⟨h1, ?_⟩
      intro i x w hx hw
      cases i with
      | zero => simp at hx; exact absurd hx (hp x)
      | succ i => exact h2 i x w (by simpa using hx) (by simpa using hw)
    have take : ∀ y, p = .int (.var y) → (∀ w, st.get y = some w → w = v) →
        bindNames ps vs (st.set y v) = .ok st' →
        ExtendsG st st' ∧ ∀ (i : Nat) x w, (p :: ps)[i]? = some (.int (.var x)) →
          (v :: vs)[i]? = some w → st'.get x = some w := by
      intro y hp hy h
      obtain ⟨h1, h2⟩ := bindNames_spec ps vs _ st' h
      refine ⟨?_, ?_⟩
      · intro x w hx
        apply h1
        rw [GoMap.get_set]
        split
        · rename_i he; subst he; rw [hy w hx]
        · exact hx
      · intro i x w hx hw
        cases i with
        | zero =>
          simp at hx hw
          subst hw
          rw [hp] at hx
          simp at hx
          subst hx
          exact h1 _ _ (by simp [GoMap.get_set])
        | succ i => exact h2 i x w (by simpa using hx) (by simpa using hw)
    cases p with
    | int q =>
      cases q with
      | concrete c => exact skip h (by simp)
      | var x =>
        simp only [bindNames] at h
        cases hg : st.get x with
        | none => simp only [hg] at h; exact take x rfl (by simp [hg]) h
        | some w =>
          simp only [hg] at h
          split at h
          · rename_i hs
            refine take x rfl ?_ h
            intro w' hw'
            rw [hg] at hw'
            simp at hw'
            subst hw'
            exact same_eq hs
          · simp at h
    | ty => exact skip h (by simp)
    | udtParam => exact skip h (by simp)

theorem buildMap_spec : ∀ (ps : List FTy) (ts : List Ty) (st st' : GoMap String GVal),
    buildNameValueMap ps ts st = .ok st' → ExtendsG st st' ∧
      ∀ (i : Nat) p t, ps[i]? = some p → ts[i]? = some t →
        ∀ (j : Nat) x v, p.absParams[j]? = some (.int (.var x)) → t.getParameters[j]? = some v →
          st'.get x = some v
  | [], ts, st, st', h => by
    simp [buildNameValueMap] at h; subst h; exact ⟨fun _ _ h => h, by simp⟩
  | p :: ps, ts, st, st', h => by
    simp only [buildNameValueMap] at h
    split at h
    · rename_i he
      obtain ⟨h1, h2⟩ := buildMap_spec ps ts.tail st st' h
      refine ⟨h1, ?_⟩
      intro i q t hq ht j x v hx hv
      cases i with
      | zero =>
        simp at hq; subst hq
        rw [List.isEmpty_iff.1 he] at hx
        simp at hx
      | succ i =>
        refine h2 i q t (by simpa using hq) ?_ j x v hx hv
        cases ts with
        | nil => simp at ht
        | cons => simpa using ht
    · cases ts with
      | nil => simp at h
      | cons a ts =>
        simp only at h
        split at h
        · simp at h
        · rw [Res.bind_eq_ok] at h
          obtain ⟨st1, e1, e2⟩ := h
          obtain ⟨h1, h2⟩ := bindNames_spec _ _ _ _ e1
          obtain ⟨h3, h4⟩ := buildMap_spec ps ts st1 st' e2
          refine ⟨fun x w hx => h3 x w (h1 x w hx), ?_⟩
          intro i q t hq ht j x v hx hv
          cases i with
          | zero => simp at hq ht; subst hq ht; exact h3 _ _ (h2 j x v hx hv)
          | succ i => exact h4 i q t (by simpa using hq) (by simpa using ht) j x v hx hv

/-- a name in two parameters makes them synchronised -/
theorem hasSync_true : ∀ (ps : List FTy) (seen : List String) (b : Bool),
    hasSyncParams seen ps = .ok b →
    (∃ (j : Nat) (q : FTy) (l : List String) (x : String), ps[j]? = some q ∧ q.leaves = .ok l ∧ x ∈ l ∧
      (x ∈ seen ∨ ∃ (i : Nat) (p : FTy) (k : List String), i < j ∧ ps[i]? = some p ∧ p.leaves = .ok k ∧ x ∈ k)) →
    b = true
  | [], seen, b, h, ⟨j, q, l, x, hq, _⟩ => by simp at hq
  | p :: ps, seen, b, h, ⟨j, q, l, x, hq, hl, hx, ho⟩ => by
    simp only [hasSyncParams, Res.bind_eq_ok] at h
    obtain ⟨k, hk, h⟩ := h
    split at h
    · simp at h; exact h
    · rename_i hn
      refine hasSync_true ps _ b h ?_
      simp only [List.any_eq_true, List.contains_iff_mem, not_exists, not_and] at hn
      cases j with
      | zero =>
        simp at hq; subst hq
        rw [hk] at hl; simp at hl; subst hl
        rcases ho with ho | ⟨i, _, _, hi, _⟩
        · exact absurd ho (hn x hx)
        · omega
      | succ j =>
        refine ⟨j, q, l, x, by simpa using hq, hl, hx, ?_⟩
        rcases ho with ho | ⟨i, p', k', hi, hp', hk', hx'⟩
        · exact .inl (by simp [ho])
        · cases i with
          | zero =>
            simp at hp'; subst hp'
            rw [hk] at hk'; simp at hk'; subst hk'
            exact .inl (by simp [hx'])
          | succ i => exact .inr ⟨i, p', k', by omega, by simpa using hp', hk', hx'⟩

/-! ### Shared integer variables that agree -/

mutual
theorem varies_iff : ∀ p : FTy, p.NoUdt → (p.Varies ↔ p.hasParam = true)
  | .prim .., _ => by simp [FTy.Varies, FTy.hasParam]
  | .any .., _ => by simp [FTy.Varies, FTy.hasParam]
  | .enum .., _ => by simp [FTy.Varies, FTy.hasParam]
  | .single _ _ p, _ => by cases p <;> simp [FTy.Varies, FTy.hasParam, IntParam.isVar]
  | .decimal _ p s, _ => by
    cases p <;> cases s <;> simp [FTy.Varies, FTy.hasParam, IntParam.isVar]
  | .list _ t, h => by simpa [FTy.Varies, FTy.hasParam] using varies_iff t (by simpa [FTy.NoUdt] using h)
  | .map _ k v, h => by
    simp only [FTy.NoUdt] at h
    simp [FTy.Varies, FTy.hasParam, varies_iff k h.1, varies_iff v h.2]
  | .struct _ ts, h => by
    simpa [FTy.Varies, FTy.hasParam] using variesList_iff ts (by simpa [FTy.NoUdt] using h)
  | .func _ ps r, h => by
    simp only [FTy.NoUdt] at h
    simp [FTy.Varies, FTy.hasParam, variesList_iff ps h.1, varies_iff r h.2]
  | .udt .., h => by simp [FTy.NoUdt] at h
  | .derivation _ t, h => by
    simpa [FTy.Varies, FTy.hasParam] using varies_iff t (by simpa [FTy.NoUdt] using h)
theorem variesList_iff : ∀ ps : List FTy, FTy.NoUdtList ps → (FTy.VariesList ps ↔ FTy.anyHasParam ps = true)
  | [], _ => by simp [FTy.VariesList, FTy.anyHasParam]
  | p :: ps, h => by
    simp only [FTy.NoUdtList] at h
    simp [FTy.VariesList, FTy.anyHasParam, varies_iff p h.1, variesList_iff ps h.2]
end

theorem noUdtList_mem : ∀ {ps : List FTy}, FTy.NoUdtList ps → ∀ p ∈ ps, p.NoUdt
  | [], _, p, hp => by simp at hp
  | q :: ps, h, p, hp => by
    simp only [FTy.NoUdtList] at h
    rcases List.mem_cons.1 hp with rfl | hp
    · exact h.1
    · exact noUdtList_mem h.2 p hp

theorem filter_even {ps : List FTy} (hn : ∀ p ∈ ps, p.NoUdt)
    (he : (∀ p ∈ ps, p.Varies) ∨ ∀ p ∈ ps, ¬ p.Varies) :
    (ps.filter FTy.hasParam).length = ps.length ∨ ps.filter FTy.hasParam = [] := by
  rcases he with he | he
  · left
    rw [List.filter_eq_self.2 (fun p hp => (varies_iff p (hn p hp)).1 (he p hp))]
  · right
    rw [List.filter_eq_nil_iff]
    exact fun p hp h => he p hp ((varies_iff p (hn p hp)).2 h)

theorem absParams_unvaried : ∀ p : FTy, p.NoUdt → ¬ p.Varies → p.absParams = []
  | .prim .., _, _ => rfl
  | .any .., _, _ => rfl
  | .enum .., _, _ => rfl
  | .single _ _ p, _, h => by cases p <;> simp_all [FTy.Varies, FTy.absParams, IntParam.isVar]
  | .decimal _ p s, _, h => by
    cases p <;> cases s <;> simp_all [FTy.Varies, FTy.absParams, IntParam.isVar]
  | .list _ t, hn, h => by
    have : ¬ t.hasParam = true := fun e => h (by
      simpa [FTy.Varies] using (varies_iff t (by simpa [FTy.NoUdt] using hn)).2 e)
    simp [FTy.absParams, this]
  | .map _ k v, hn, h => by
    simp only [FTy.NoUdt] at hn
    have h := (not_congr (varies_iff (.map 0 k v) (by simpa [FTy.NoUdt] using hn))).1 (by
      simpa [FTy.Varies] using h)
    simp only [FTy.hasParam, Bool.or_eq_true, not_or] at h
    simp [FTy.absParams, h.1, h.2]
  | .struct _ ts, hn, h => by
    have h := (not_congr (varies_iff (.struct 0 ts) (by simpa [FTy.NoUdt] using hn))).1 (by
      simpa [FTy.Varies] using h)
    simp only [FTy.hasParam] at h
    have key : ∀ ts : List FTy, ¬ FTy.anyHasParam ts = true → ts.filter FTy.hasParam = [] := by
      intro ts
      induction ts with
      | nil => simp
      | cons t ts ih =>
        intro h
        simp only [FTy.anyHasParam, Bool.or_eq_true, not_or] at h
        simp [h.1, ih h.2]
    simp [FTy.absParams, key ts h]
  | .func _ ps r, hn, h => by
    have h := (not_congr (varies_iff (.func 0 ps r) (by simpa [FTy.NoUdt] using hn))).1 (by
      simpa [FTy.Varies] using h)
    simp only [FTy.hasParam, Bool.or_eq_true, not_or] at h
    have key : ∀ ts : List FTy, ¬ FTy.anyHasParam ts = true → ts.filter FTy.hasParam = [] := by
      intro ts
      induction ts with
      | nil => simp
      | cons t ts ih =>
        intro h
        simp only [FTy.anyHasParam, Bool.or_eq_true, not_or] at h
        simp [h.1, ih h.2]
    simp [FTy.absParams, key ps h.1, h.2]
  | .udt .., hn, _ => by simp [FTy.NoUdt] at hn
  | .derivation _ t, hn, h => by
    simpa [FTy.absParams] using absParams_unvaried t (by simpa [FTy.NoUdt] using hn)
      (by simpa [FTy.Varies] using h)

/-- an argument has as many parameters as its declared type, when they vary together -/
theorem absParams_length {p : FTy} {t : Ty} (hn : p.NoUdt) (he : p.Even) (hm : p.matchLoose t = true) :
    p.absParams = [] ∨ p.absParams.length = t.getParameters.length := by
  cases p with
  | prim => exact .inl rfl
  | any => exact .inl rfl
  | enum => exact .inl rfl
  | single k n p =>
    cases p with
    | concrete => exact .inl rfl
    | var x =>
      right
      cases t <;> simp_all [FTy.matchLoose, singleMatches, FTy.absParams, IntParam.isVar, Ty.getParameters]
  | decimal n p s =>
    cases t <;> simp [FTy.matchLoose] at hm
    simp only [FTy.absParams, Ty.getParameters]
    split <;> simp
  | list n p =>
    cases t <;> simp [FTy.matchLoose] at hm
    simp only [FTy.absParams, Ty.getParameters]
    split <;> simp
  | map n k v =>
    cases t <;> simp [FTy.matchLoose] at hm
    simp only [FTy.NoUdt] at hn
    simp only [FTy.Even, varies_iff k hn.1, varies_iff v hn.2] at he
    simp only [FTy.absParams, Ty.getParameters]
    cases hk : k.hasParam <;> cases hv : v.hasParam <;> simp_all
  | struct n ts =>
    cases t <;> simp [FTy.matchLoose] at hm
    simp only [FTy.NoUdt] at hn
    rcases filter_even (noUdtList_mem hn) he with h | h
    · right; simp [FTy.absParams, Ty.getParameters, h, hm.1]
    · left; simp [FTy.absParams, h]
  | func n ps r =>
    cases t <;> simp [FTy.matchLoose] at hm
    simp only [FTy.NoUdt] at hn
    have := filter_even (ps := ps ++ [r]) (by
      intro p hp
      rcases List.mem_append.1 hp with hp | hp
      · exact noUdtList_mem hn.1 p hp
      · simp at hp; subst hp; exact hn.2) (by
      simp only [FTy.Even] at he
      rcases he with he | he
      · exact .inl fun t ht => he t (by simpa [or_comm] using ht)
      · exact .inr fun t ht => he t (by simpa [or_comm] using ht))
    rcases this with h | h
    · right; simp only [FTy.absParams, Ty.getParameters, List.length_map, h]; simp [hm.1.1]
    · left; simp only [FTy.absParams, h]; rfl
  | udt => simp [FTy.NoUdt] at hn
  | derivation as t => exact .inl (absParams_unvaried _ hn (by simpa [FTy.Even, FTy.Varies] using he))

theorem bindNames_within {W : String → GVal → Prop} (hW : ∀ x v w, W x v → W x w → v.same w = true) :
    ∀ (ps : List AbsParam) (vs : List GVal) (st : GoMap String GVal),
      (∀ x v, st.get x = some v → W x v) →
      (∀ (j : Nat) x v, ps[j]? = some (.int (.var x)) → vs[j]? = some v → W x v) →
      ∃ st', bindNames ps vs st = .ok st' ∧ ∀ x v, st'.get x = some v → W x v
  | [], vs, st, hs, _ => ⟨st, by cases vs <;> rfl, hs⟩
  | p :: ps, [], st, hs, _ => ⟨st, by
      cases p with
      | int q => cases q <;> rfl
      | _ => rfl, hs⟩
  | p :: ps, v :: vs, st, hs, h => by
    have next : ∀ st, (∀ x v, st.get x = some v → W x v) →
        ∃ st', bindNames ps vs st = .ok st' ∧ ∀ x v, st'.get x = some v → W x v :=
      fun st hs => bindNames_within hW ps vs st hs (fun j x v hp hv =>
        h (j + 1) x v (by simpa using hp) (by simpa using hv))
    cases p with
    | int q =>
      cases q with
      | concrete c => simpa [bindNames] using next st hs
      | var x =>
        have hx := h 0 x v (by simp) (by simp)
        have hset : ∀ y w, (st.set x v).get y = some w → W y w := by
          intro y w hy
          rw [GoMap.get_set] at hy
          split at hy
          · rename_i e; subst e; simp at hy; subst hy; exact hx
          · exact hs y w hy
        simp only [bindNames]
        cases hg : st.get x with
        | none => exact next _ hset
        | some w =>
          have := hW x w v (hs x w hg) hx
          simp only [this, if_true]
          exact next _ hset
    | ty => simpa [bindNames] using next st hs
    | udtParam => simpa [bindNames] using next st hs

theorem buildMap_within {W : String → GVal → Prop} (hW : ∀ x v w, W x v → W x w → v.same w = true) :
    ∀ (ps : List FTy) (ts : List Ty) (st : GoMap String GVal), ps.length ≤ ts.length →
      (∀ x v, st.get x = some v → W x v) →
      (∀ (i : Nat) p t, ps[i]? = some p → ts[i]? = some t →
        (p.absParams = [] ∨ p.absParams.length = t.getParameters.length) ∧
        ∀ (j : Nat) x v, p.absParams[j]? = some (.int (.var x)) → t.getParameters[j]? = some v → W x v) →
      ∃ st', buildNameValueMap ps ts st = .ok st'
  | [], ts, st, _, _, _ => ⟨st, rfl⟩
  | p :: ps, [], st, hl, _, _ => by simp at hl
  | p :: ps, t :: ts, st, hl, hs, h => by
    have rest := fun st hs => buildMap_within hW ps ts st (by simpa using hl) hs (fun i q u hq hu =>
      h (i + 1) q u (by simpa using hq) (by simpa using hu))
    obtain ⟨h1, h2⟩ := h 0 p t (by simp) (by simp)
    simp only [buildNameValueMap]
    split
    · exact rest st hs
    · rename_i hne
      have hlen := h1.resolve_left (fun e => hne (by simp [e]))
      obtain ⟨st1, e1, hs1⟩ := bindNames_within hW p.absParams t.getParameters st hs h2
      rw [if_neg (by simp [hlen]), e1]
      exact rest st1 hs1

/-- an integer variable at the top of a declared type, and the value there -/
theorem absParams_intAt {p : FTy} {t : Ty} (hn : p.NoUdt) (he : p.Even) (hm : p.matchLoose t = true) {j : Nat} {x : String}
    {v : GVal} (hx : p.absParams[j]? = some (.int (.var x))) (hv : t.getParameters[j]? = some v) :
    (∃ k n c, p = .single (.prec k) n (.var x) ∧ v = .prec c ∧ IntAt x p t c) ∨
    (((∃ k n, p = .single (.fixed k) n (.var x)) ∨ (∃ n s, p = .decimal n (.var x) s) ∨
      ∃ n s, p = .decimal n s (.var x)) ∧ ∃ c, v = .int (Int64.ofInt c.toInt) ∧ IntAt x p t c) := by
  cases p with
  | single k n q =>
    cases q with
    | concrete => simp [FTy.absParams, IntParam.isVar] at hx
    | var y =>
      simp only [FTy.absParams, IntParam.isVar, if_true] at hx
      obtain _ | j := j
      · simp at hx; subst hx
        cases t <;> simp [FTy.matchLoose, singleMatches] at hm
        · obtain ⟨rfl, _⟩ := hm
          simp [Ty.getParameters] at hv
          exact .inr ⟨.inl ⟨_, _, rfl⟩, _, hv.symm, .fixed ..⟩
        · obtain ⟨rfl, _⟩ := hm
          simp [Ty.getParameters] at hv
          exact .inl ⟨_, _, _, rfl, hv.symm, .prec ..⟩
      · simp at hx
  | decimal n q s =>
    cases t <;> simp [FTy.matchLoose] at hm
    simp only [FTy.absParams] at hx
    split at hx
    · obtain _ | _ | j := j
      · simp at hx; subst hx
        simp [Ty.getParameters] at hv
        exact .inr ⟨.inr (.inl ⟨_, _, rfl⟩), _, hv.symm, .precision ..⟩
      · simp at hx; subst hx
        simp [Ty.getParameters] at hv
        exact .inr ⟨.inr (.inr ⟨_, _, rfl⟩), _, hv.symm, .scale ..⟩
      · simp at hx
    · simp at hx
  | derivation as q =>
    rw [absParams_unvaried _ hn (by simpa [FTy.Even, FTy.Varies] using he)] at hx
    simp at hx
  | list n q =>
    simp only [FTy.absParams] at hx
    split at hx
    · obtain _ | j := j <;> simp at hx
    · simp at hx
  | prim => simp [FTy.absParams] at hx
  | any => simp [FTy.absParams] at hx
  | enum => simp [FTy.absParams] at hx
  | map => simp [FTy.absParams] at hx
  | struct => simp [FTy.absParams] at hx
  | func => have := List.mem_of_getElem? hx; simp [FTy.absParams] at this
  | udt => simp [FTy.NoUdt] at hn

end Verif
