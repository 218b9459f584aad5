import Verif.Model.RelBuild
import Verif.Spec.Rel
import Mathlib.Data.List.Forall2
/-!
# Lemmas about relations
-/

namespace Verif

theorem picks_iff {src : List α} {m : List Int32} {out : List α} :
    Res.mapL (fun i : Int32 => Res.index src i.toInt) m = .ok out ↔ Picks src m out := by
  unfold Picks
  induction m generalizing out with
  | nil => simp [eq_comm]
  | cons i m ih =>
    simp only [Res.mapL_cons, Res.bind_eq_ok, Res.index_eq_ok, ih, List.forall₂_cons_left_iff]
    constructor
    · rintro ⟨a, ha, b, hb, h⟩
      cases h
      exact ⟨a, b, ha, hb, rfl⟩
    · rintro ⟨a, b, ha, hb, rfl⟩
      exact ⟨a, ha, b, hb, rfl⟩

theorem Picks.length_eq {src : List α} {m : List Int32} {out : List α} (h : Picks src m out) :
    out.length = m.length := (List.Forall₂.length_eq h).symm

theorem picks_exists {src : List α} {m : List Int32} :
    (∃ out, Picks src m out) ↔ ∀ i ∈ m, InBounds src.length i := by
  unfold Picks InBounds
  induction m with
  | nil => simp
  | cons i m ih =>
    constructor
    · rintro ⟨out, h⟩
      obtain ⟨a, b, ⟨h0, ha⟩, hb, rfl⟩ := List.forall₂_cons_left_iff.1 h
      intro j hj
      rcases List.mem_cons.1 hj with rfl | hj
      · have := (List.getElem?_eq_some_iff.1 ha).1
        omega
      · exact (ih.1 ⟨b, hb⟩) j hj
    · intro h
      obtain ⟨b, hb⟩ := ih.2 (fun j hj => h j (List.mem_cons_of_mem _ hj))
      have hi := h i (List.mem_cons_self ..)
      have hlt : i.toInt.toNat < src.length := by omega
      exact ⟨src[i.toInt.toNat] :: b, List.Forall₂.cons ⟨hi.1, by simp [hlt]⟩ hb⟩

theorem Picks.functional {src : List α} {m : List Int32} {a b : List α} (ha : Picks src m a)
    (hb : Picks src m b) : a = b := by
  have h1 := picks_iff.2 ha
  have h2 := picks_iff.2 hb
  rw [h1] at h2
  exact Res.ok.inj h2

theorem Picks.trans {src : List α} {m1 m2 m12 : List Int32} {mid out : List α}
    (h1 : Picks src m1 mid) (h2 : Picks mid m2 out) (h12 : Picks m1 m2 m12) : Picks src m12 out := by
  unfold Picks at h2 h12 ⊢
  induction h2 generalizing m12 with
  | nil => cases h12; exact List.Forall₂.nil
  | cons h _ ih =>
    obtain ⟨a, b, ⟨h0, ha⟩, hb, rfl⟩ := List.forall₂_cons_left_iff.1 h12
    refine List.Forall₂.cons ?_ (ih hb)
    have hm := h.2
    have hlen := h1.length_eq
    obtain ⟨hk, hx⟩ := List.getElem?_eq_some_iff.1 hm
    obtain ⟨hk', hx'⟩ := List.getElem?_eq_some_iff.1 ha
    have := List.Forall₂.get h1 hk' hk
    simp only [List.get_eq_getElem, hx, hx'] at this
    exact this

theorem common_remap_none {c : RelCommon} (h : c.mapping = none) (ts : List Ty) :
    c.remap ts = .ok ts := by simp [RelCommon.remap, h]

theorem common_remap_some {c : RelCommon} {m : List Int32} (h : c.mapping = some m) {ts out : List Ty} :
    c.remap ts = .ok out ↔ Picks ts m out := by simp [RelCommon.remap, h, picks_iff]

theorem common_setMapping (r : Rel) (m : Option (List Int32)) :
    (r.setMapping m).common = { r.common with mapping := m } := by
  cases r <;> rfl

theorem direct_withCommon (r : Rel) (c : RelCommon) :
    (r.withCommon c).directOutputSchema = r.directOutputSchema := by
  cases r with
  | set _ is _ _ => cases is <;> simp only [Rel.withCommon, Rel.directOutputSchema]
  | extMulti _ is d =>
    rcases is with _ | ⟨i, _ | ⟨j, is⟩⟩ <;> cases d <;>
      simp only [Rel.withCommon, Rel.directOutputSchema]
  | _ => simp only [Rel.withCommon, Rel.directOutputSchema]

theorem direct_setMapping (r : Rel) (m : Option (List Int32)) :
    (r.setMapping m).directOutputSchema = r.directOutputSchema := direct_withCommon r _

theorem setMapping_setMapping (r : Rel) (m m' : Option (List Int32)) :
    (r.setMapping m).setMapping m' = r.setMapping m' := by
  cases r <;> rfl

theorem copy_getInputs (r : Rel) : r.copy r.getInputs = .ok r := by
  cases r <;> rfl

/-- The identity mapping on `n` columns. -/
def identityMapping (n : Nat) : List Int32 := (List.range n).map Int32.ofNat

/-- The mapping in effect: what is set, else the identity. -/
def effective (r : Rel) (n : Nat) : List Int32 := r.outputMapping.getD (identityMapping n)

/-- What `Remap` stores for a list of positions in the direct schema of `n` columns. -/
def stored (n : Nat) (m : List Int32) : Option (List Int32) :=
  if m ≠ [] ∧ m = identityMapping n then none else some m

theorem toInt_ofNat {n : Nat} (h : n < 2 ^ 31) : (Int32.ofNat n).toInt = n := by
  rw [Int32.toInt_ofNat_of_lt h]

theorem picks_identity (ts : List α) (h : ts.length < 2 ^ 31) :
    Picks ts (identityMapping ts.length) ts := by
  unfold Picks identityMapping
  rw [List.forall₂_iff_get]
  refine ⟨by simp, fun i h1 h2 => ?_⟩
  have hi : i < 2 ^ 31 := by
    simp only [List.length_map, List.length_range] at h1
    omega
  simp only [List.get_eq_getElem, List.getElem_map, List.getElem_range, toInt_ofNat hi]
  exact ⟨by omega, by simp⟩

theorem isSequential_iff (m : List Int32) (x : Nat) (h : x + m.length ≤ 2 ^ 31) :
    isSequentialFrom x m = true ↔ m = (List.range' x m.length).map Int32.ofNat := by
  induction m generalizing x with
  | nil => simp [isSequentialFrom]
  | cons i m ih =>
    simp only [isSequentialFrom, List.length_cons, List.range'_succ, List.map_cons, List.cons.injEq]
    simp only [List.length_cons] at h
    by_cases hi : i = Int32.ofNat x
    · rw [if_neg (by simpa using hi), ih (x + 1) (by omega)]
      simp [hi]
    · rw [if_pos hi]
      simp [hi]

theorem sequential_iff (m : List Int32) (n : Nat) (h : n < 2 ^ 31) :
    ((m.length : Int) = n ∧ isSequentialFrom 0 m = true) ↔ m = identityMapping n := by
  constructor
  · rintro ⟨hl, hs⟩
    have hl : m.length = n := by omega
    have := (isSequential_iff m 0 (by omega)).1 hs
    rw [identityMapping, List.range_eq_range', ← hl]
    exact this
  · intro hm
    have hl : m.length = n := by rw [hm]; simp [identityMapping]
    refine ⟨by omega, (isSequential_iff m 0 (by omega)).2 ?_⟩
    rw [identityMapping, List.range_eq_range', ← hl] at hm
    exact hm

theorem fieldCount_toInt {ts : List Ty} (h : Countable ts) : (fieldCount ts).toInt = ts.length :=
  toInt_ofNat h

theorem remapLoop_ok {n : Nat} {nOut : Int32} (hn : nOut.toInt = n) (old : List Int32)
    (eff : List Int32) (he : eff.length = n) (hle : n < 2 ^ 31)
    (ho : if old.length > 0 then eff = old else eff = identityMapping n) (m : List Int32) :
    (∀ m', Picks eff m m' → remapLoop nOut old m = .ok m') ∧
    ((∃ i ∈ m, ¬ InBounds n i) → remapLoop nOut old m = .err) := by
  induction m with
  | nil =>
    refine ⟨fun m' h => ?_, by simp⟩
    cases h
    rfl
  | cons i m ih =>
    have hz : (0 : Int32).toInt = 0 := rfl
    have hcond : (i < 0 ∨ nOut ≤ i) ↔ ¬ InBounds n i := by
      unfold InBounds
      rw [Int32.lt_iff_toInt_lt, Int32.le_iff_toInt_le, hn, hz]
      omega
    have hstep : InBounds n i → ∃ x, (if old.length > 0 then Res.index old i.toInt else .ok i) = .ok x
        ∧ eff[i.toInt.toNat]? = some x := by
      intro hi
      by_cases ho' : old.length > 0
      · rw [if_pos ho'] at ho ⊢
        subst ho
        have hlt : i.toInt.toNat < eff.length := by unfold InBounds at hi; omega
        exact ⟨eff[i.toInt.toNat], Res.index_eq_ok.2 ⟨hi.1, by simp [hlt]⟩, by simp [hlt]⟩
      · rw [if_neg ho'] at ho ⊢
        subst ho
        refine ⟨i, rfl, ?_⟩
        have hlt : i.toInt.toNat < n := by unfold InBounds at hi; omega
        simp only [identityMapping, List.getElem?_map, List.getElem?_range hlt, Option.map_some]
        congr 1
        apply Int32.toInt_inj.1
        rw [toInt_ofNat (by omega)]
        unfold InBounds at hi
        omega
    constructor
    · intro m' h
      obtain ⟨a, b, ⟨h0, ha⟩, hb, rfl⟩ := List.forall₂_cons_left_iff.1 h
      have hi : InBounds n i := by
        have := (List.getElem?_eq_some_iff.1 ha).1
        unfold InBounds
        omega
      obtain ⟨x, hx, hx'⟩ := hstep hi
      rw [ha] at hx'
      cases hx'
      simp only [remapLoop]
      rw [if_neg (by rw [hcond]; exact fun h => h hi), hx, Res.ok_bind, ih.1 b hb, Res.ok_bind]
    · rintro ⟨j, hj, hjn⟩
      simp only [remapLoop]
      by_cases hi : InBounds n i
      · rw [if_neg (by rw [hcond]; exact fun h => h hi)]
        obtain ⟨x, hx, -⟩ := hstep hi
        rcases List.mem_cons.1 hj with rfl | hj
        · exact absurd hi hjn
        · rw [hx, Res.ok_bind, ih.2 ⟨j, hj, hjn⟩, Res.err_bind]
      · rw [if_pos (hcond.2 hi)]

theorem recordType_picks {r : Rel} {direct cols : List Ty} (hd : r.directOutputSchema = .ok direct)
    (hs : direct.length < 2 ^ 31) :
    r.recordType = .ok cols ↔ Picks direct (effective r direct.length) cols := by
  unfold Rel.recordType effective Rel.outputMapping
  rw [hd, Res.ok_bind]
  cases hm : r.common.mapping with
  | none =>
    rw [common_remap_none hm, Option.getD_none]
    constructor
    · rintro ⟨⟩; exact picks_identity _ hs
    · intro h
      rw [h.functional (picks_identity _ hs)]
  | some m => rw [common_remap_some hm, Option.getD_some]

/-- What `Remap` does, in terms of the mapping in effect. -/
theorem remap_char {r : Rel} {direct cols : List Ty} (hd : r.directOutputSchema = .ok direct)
    (hs : direct.length < 2 ^ 31) (hc : r.recordType = .ok cols) (hcs : cols.length < 2 ^ 31)
    (m : List Int32) :
    (∀ m', Picks (effective r direct.length) m m' →
      r.remap m = .ok (r.setMapping (stored direct.length m'))) ∧
    ((∃ i ∈ m, ¬ InBounds cols.length i) → r.remap m = .err) := by
  have hp := (recordType_picks hd hs).1 hc
  have hlen : (effective r direct.length).length = cols.length := hp.length_eq.symm
  cases hm : m with
  | nil =>
    refine ⟨fun m' h => ?_, by simp⟩
    cases h
    simp [Rel.remap, copy_getInputs, stored]
  | cons i m0 =>
    rw [← hm]
    have hne : m.length ≠ 0 := by simp [hm]
    have ho : if (r.outputMapping.getD []).length > 0
        then effective r direct.length = r.outputMapping.getD []
        else (∃ j ∈ m, InBounds cols.length j) → effective r direct.length = identityMapping cols.length := by
      cases hmp : r.outputMapping with
      | none =>
        have : effective r direct.length = identityMapping direct.length := by simp [effective, hmp]
        have h2 : cols.length = direct.length := by
          rw [this] at hlen
          simpa [identityMapping] using hlen.symm
        simp [this, h2]
      | some o =>
        have : effective r direct.length = o := by simp [effective, hmp]
        cases o with
        | nil =>
          simp only [Option.getD_some, List.length_nil, gt_iff_lt, Nat.lt_irrefl, if_false]
          rintro ⟨j, hj, h1, h2⟩
          rw [this] at hlen
          simp only [List.length_nil] at hlen
          omega
        | cons _ _ => simp [this]
    have key : ∀ (l : Res (List Int32)), remapLoop (fieldCount cols) (r.outputMapping.getD []) m = l →
        r.remap m = l >>= fun m' => .ok (r.setMapping
          (if (m'.length : Int) = (fieldCount direct).toInt ∧ isSequentialFrom 0 m' = true
            then none else some m')) := by
      rintro l rfl
      unfold Rel.remap
      rw [copy_getInputs, Res.ok_bind, if_neg hne, hc, Res.ok_bind]
      cases remapLoop (fieldCount cols) (r.outputMapping.getD []) m with
      | ok m' =>
        simp only [Res.ok_bind, hd]
        split <;> rfl
      | err => rfl
      | panic => rfl
    by_cases hin : ∃ j ∈ m, InBounds cols.length j
    · have ho' : if (r.outputMapping.getD []).length > 0
        then effective r direct.length = r.outputMapping.getD []
        else effective r direct.length = identityMapping cols.length := by
        split
        · rename_i h; rw [if_pos h] at ho; exact ho
        · rename_i h; rw [if_neg h] at ho; exact ho hin
      have hl := remapLoop_ok (fieldCount_toInt hcs) (r.outputMapping.getD [])
        (effective r direct.length) hlen hcs ho' m
      refine ⟨fun m' h => ?_, fun h => ?_⟩
      · rw [key _ (hl.1 m' h), Res.ok_bind]
        have hl' : m'.length = m.length := h.length_eq
        have hne' : m' ≠ [] := by rintro rfl; simp at hl'; omega
        congr 2
        unfold stored
        simp only [fieldCount_toInt hs, sequential_iff m' direct.length hs, ne_eq, hne', not_false_eq_true,
          true_and]
      · rw [key _ (hl.2 h), Res.err_bind]
    · have hi : ¬ InBounds cols.length i := fun h => hin ⟨i, by simp [hm], h⟩
      have hbad : remapLoop (fieldCount cols) (r.outputMapping.getD []) m = .err := by
        have hcond : i < 0 ∨ fieldCount cols ≤ i := by
          rw [Int32.lt_iff_toInt_lt, Int32.le_iff_toInt_le, fieldCount_toInt hcs]
          have hz : (0 : Int32).toInt = 0 := rfl
          unfold InBounds at hi
          omega
        rw [hm, remapLoop, if_pos hcond]
      refine ⟨fun m' h => ?_, fun _ => by rw [key _ hbad, Res.err_bind]⟩
      exfalso
      have := picks_exists.1 ⟨m', h⟩ i (by simp [hm])
      rw [hlen] at this
      exact hi this

theorem effective_stored (r : Rel) (n : Nat) (m : List Int32) :
    effective (r.setMapping (stored n m)) n = m := by
  unfold effective Rel.outputMapping
  rw [common_setMapping]
  unfold stored
  split
  · rename_i h; simp [h.2]
  · rfl

/-! ## Builders -/

theorem checkMapping_iff (n : Int32) (m : List Int32) :
    (checkMapping n m = .ok () ↔ ∀ i ∈ m, 0 ≤ i.toInt ∧ i.toInt < n.toInt) ∧
    (checkMapping n m ≠ .ok () → checkMapping n m = .err) := by
  induction m with
  | nil => simp [checkMapping]
  | cons i m ih =>
    have hz : (0 : Int32).toInt = 0 := rfl
    have hcond : (i < 0 ∨ n ≤ i) ↔ ¬ (0 ≤ i.toInt ∧ i.toInt < n.toInt) := by
      rw [Int32.lt_iff_toInt_lt, Int32.le_iff_toInt_le, hz]
      omega
    simp only [checkMapping]
    by_cases h : 0 ≤ i.toInt ∧ i.toInt < n.toInt
    · rw [if_neg (by rw [hcond]; exact fun h' => h' h)]
      refine ⟨?_, ih.2⟩
      rw [ih.1]
      simp [h]
    · rw [if_pos (hcond.2 h)]
      simp
      intro h1 h2
      exact absurd ⟨h1, h2⟩ h

theorem checkRemap_iff (n : Int32) (m : Option (List Int32)) :
    checkRemap n m = .ok () ↔ ∀ is, m = some is → ∀ i ∈ is, 0 ≤ i.toInt ∧ i.toInt < n.toInt := by
  unfold checkRemap
  rw [(checkMapping_iff _ _).1]
  cases m <;> simp

theorem ofNat_toInt_le (n : Nat) : (Int32.ofNat n).toInt ≤ n := by
  rw [Int32.toInt_ofNat']
  have hs : Int32.size = 4294967296 := rfl
  rw [hs, Int.bmod_def]
  split <;> omega

/-- A relation whose mapping fits its direct schema has one column per mapping entry. -/
theorem recordType_of_direct {r : Rel} {direct : List Ty} (hd : r.directOutputSchema = .ok direct)
    (hb : ∀ is, r.common.mapping = some is → ∀ i ∈ is, InBounds direct.length i) :
    ∃ ts, r.recordType = .ok ts ∧ ∀ is, r.common.mapping = some is → ts.length = is.length := by
  unfold Rel.recordType
  rw [hd, Res.ok_bind]
  cases hm : r.common.mapping with
  | none => exact ⟨direct, common_remap_none hm _, by simp⟩
  | some is =>
    obtain ⟨out, ho⟩ := picks_exists.2 (hb is hm)
    refine ⟨out, (common_remap_some hm).2 ho, ?_⟩
    rintro _ ⟨⟩
    exact ho.length_eq

theorem inBounds_of_check {n : Nat} {m : Option (List Int32)} (h : checkRemap (Int32.ofNat n) m = .ok ()) :
    ∀ is, m = some is → ∀ i ∈ is, InBounds n i := by
  intro is his i hi
  have := (checkRemap_iff _ _).1 h is his i hi
  have h2 := ofNat_toInt_le n
  exact ⟨this.1, by omega⟩

theorem check_of_inBounds {n : Nat} (hn : n < 2 ^ 31) {m : Option (List Int32)}
    (h : ∀ is, m = some is → ∀ i ∈ is, InBounds n i) : checkRemap (Int32.ofNat n) m = .ok () := by
  rw [checkRemap_iff]
  intro is his i hi
  rw [toInt_ofNat hn]
  exact h is his i hi

theorem mapL_length {f : α → Res β} {l : List α} {o : List β} (h : Res.mapL f l = .ok o) :
    o.length = l.length := by
  induction l generalizing o with
  | nil => cases h; rfl
  | cons x l ih =>
    simp only [Res.mapL_cons, Res.bind_eq_ok] at h
    obtain ⟨a, -, b, hb, he⟩ := h
    cases he
    simp [ih hb]

theorem join_direct_indep (c c' : RelCommon) (l r : Rel) (e p : Expr) (t : JoinType) (a : Option Nat) :
    (Rel.join c l r e p t a).directOutputSchema = (Rel.join c' l r e p t a).directOutputSchema := by
  simp only [Rel.directOutputSchema]

theorem mapL_total' {f : α → Res β} {l : List α} (h : ∀ e ∈ l, ∃ t, f e = .ok t) :
    ∃ o, Res.mapL f l = .ok o := by
  induction l with
  | nil => exact ⟨[], rfl⟩
  | cons x l ih =>
    obtain ⟨a, ha⟩ := h x (by simp)
    obtain ⟨b, hb⟩ := ih (fun e he => h e (by simp [he]))
    exact ⟨a :: b, by simp [ha, hb]⟩


/-- A covered call that succeeds yields a relation with that mapping, all of whose indices lie
within the direct schema. -/
theorem run_sound (call : BuildCall) (m : Option (List Int32)) (h : call.Covered m) (r : Rel)
    (hr : call.run m = .ok r) :
    r.common.mapping = m ∧ ∃ D, r.directOutputSchema = .ok D ∧
      ∀ is, m = some is → ∀ i ∈ is, InBounds D.length i := by
  cases call with
  | project i es =>
    cases i with
    | none => cases hr
    | some i =>
      simp only [BuildCall.run, projectRemap] at hr
      split at hr
      · cases hr
      · obtain ⟨ts, hts, hr⟩ := Res.bind_eq_ok.1 hr
        obtain ⟨⟨⟩, hk, hr⟩ := Res.bind_eq_ok.1 hr
        cases hr
        obtain ⟨us, hus⟩ := mapL_total' h
        have hl := mapL_length hus
        refine ⟨rfl, ts ++ us, ?_, ?_⟩
        · simp only [Rel.directOutputSchema]
          rw [show i.directOutputSchema >>= i.common.remap = i.recordType from rfl, hts]
          simp [hus]
        · rw [fieldCount, ← Int32.ofNat_add] at hk
          rw [List.length_append, hl]
          exact inBounds_of_check hk
  | cross l r =>
    cases l <;> cases r <;> try cases hr
    rename_i l r
    simp only [BuildCall.run, crossRemap] at hr
    obtain ⟨ls, hls, hr⟩ := Res.bind_eq_ok.1 hr
    obtain ⟨rs, hrs, hr⟩ := Res.bind_eq_ok.1 hr
    obtain ⟨⟨⟩, hk, hr⟩ := Res.bind_eq_ok.1 hr
    cases hr
    refine ⟨rfl, ls ++ rs, ?_, ?_⟩
    · simp only [Rel.directOutputSchema]
      rw [show l.directOutputSchema >>= l.common.remap = l.recordType from rfl, hls,
        show r.directOutputSchema >>= r.common.remap = r.recordType from rfl, hrs]
      rfl
    · rw [fieldCount, fieldCount, ← Int32.ofNat_add] at hk
      rw [List.length_append]
      exact inBounds_of_check hk
  | fetch i o n =>
    cases i with
    | none => cases hr
    | some i =>
      obtain ⟨ts, hts, hr⟩ := Res.bind_eq_ok.1 hr
      obtain ⟨⟨⟩, hk, hr⟩ := Res.bind_eq_ok.1 hr
      cases hr
      exact ⟨rfl, ts, by simp only [Rel.directOutputSchema]; exact hts, inBounds_of_check hk⟩
  | filter i e =>
    cases i with
    | none => cases hr
    | some i =>
      simp only [BuildCall.run, filterRemap] at hr
      split at hr
      · cases hr
      · obtain ⟨b, hb, hr⟩ := Res.bind_eq_ok.1 hr
        cases b with
        | false => cases hr
        | true =>
          obtain ⟨ts, hts, hr⟩ := Res.bind_eq_ok.1 hr
          obtain ⟨⟨⟩, hk, hr⟩ := Res.bind_eq_ok.1 hr
          cases hr
          refine ⟨rfl, ts, ?_, inBounds_of_check hk⟩
          simp only [Rel.directOutputSchema]
          rw [hts, Res.ok_bind, common_remap_none h]
  | join l r e p t =>
    cases l <;> cases r <;> try cases hr
    rename_i l r
    simp only [BuildCall.run, joinAndFilterRemap] at hr
    split at hr
    · cases hr
    · obtain ⟨b, hb, hr⟩ := Res.bind_eq_ok.1 hr
      split at hr
      · cases hr
      · split at hr
        · cases hr
        · obtain ⟨b, hb, hr⟩ := Res.bind_eq_ok.1 hr
          split at hr
          · cases hr
          · obtain ⟨ts, hts, hr⟩ := Res.bind_eq_ok.1 hr
            obtain ⟨⟨⟩, hk, hr⟩ := Res.bind_eq_ok.1 hr
            cases hr
            exact ⟨rfl, ts, hts, inBounds_of_check hk⟩
  | sort i ss =>
    cases i with
    | none => cases hr
    | some i =>
      obtain ⟨ts, hts, hr⟩ := Res.bind_eq_ok.1 hr
      obtain ⟨⟨⟩, hk, hr⟩ := Res.bind_eq_ok.1 hr
      split at hr
      · cases hr
      · cases hr
        exact ⟨rfl, ts, by simp only [Rel.directOutputSchema]; exact hts, inBounds_of_check hk⟩
  | set op is =>
    simp only [BuildCall.run, setRemap] at hr
    split at hr
    · cases hr
    · split at hr
      · cases hr
      · split at hr
        · cases hr
        · split at hr
          · cases hr
          · obtain ⟨ts, hts, hr⟩ := Res.bind_eq_ok.1 hr
            obtain ⟨⟨⟩, hk, hr⟩ := Res.bind_eq_ok.1 hr
            obtain ⟨⟨⟩, -, hr⟩ := Res.bind_eq_ok.1 hr
            cases hr
            exact ⟨rfl, ts, by simp only [Rel.directOutputSchema]; exact hts, inBounds_of_check hk⟩
  | scan ns s =>
    obtain ⟨⟨⟩, hk, hr⟩ := Res.bind_eq_ok.1 hr
    cases hr
    exact ⟨rfl, s.types, by simp only [Rel.directOutputSchema], inBounds_of_check hk⟩
  | virt ns vs =>
    cases vs with
    | nil => cases hr
    | cons v vs =>
      simp only [BuildCall.run, virtualTableRemap] at hr
      split at hr
      · cases hr
      · rename_i hlen
        obtain ⟨⟨⟩, hk, hr⟩ := Res.bind_eq_ok.1 hr
        obtain ⟨ts, hts, hr⟩ := Res.bind_eq_ok.1 hr
        obtain ⟨⟨⟩, -, hr⟩ := Res.bind_eq_ok.1 hr
        cases hr
        refine ⟨rfl, ts, by simp only [Rel.directOutputSchema], ?_⟩
        rw [mapL_length hts, show v.length = ns.length from by simpa using hlen]
        exact inBounds_of_check hk
  | write i op ns s =>
    cases i with
    | none => cases hr
    | some i =>
      obtain ⟨ts, hts, hr⟩ := Res.bind_eq_ok.1 hr
      obtain ⟨⟨⟩, hk, hr⟩ := Res.bind_eq_ok.1 hr
      cases hr
      refine ⟨rfl, [], by simp only [Rel.directOutputSchema], ?_⟩
      intro is his j hj
      rw [h is his] at hj
      cases hj
  | ctas i ns s =>
    cases i with
    | none => cases hr
    | some i =>
      obtain ⟨ts, hts, hr⟩ := Res.bind_eq_ok.1 hr
      obtain ⟨⟨⟩, hk, hr⟩ := Res.bind_eq_ok.1 hr
      cases hr
      refine ⟨rfl, s.types, by simp only [Rel.directOutputSchema], ?_⟩
      intro is his j hj
      have h1 := inBounds_of_check hk is his j hj
      have h2 := h ts hts
      exact ⟨h1.1, by have := h1.2; omega⟩

/-- Apart from the mapping, what a call returns does not depend on the mapping. -/
theorem run_none (call : BuildCall) (m : Option (List Int32)) (r : Rel) (hr : call.run m = .ok r) :
    call.run none = .ok (r.setMapping none) := by
  have hc : ∀ n, checkRemap n none = .ok () := fun _ => rfl
  cases call with
  | project i es =>
    cases i with
    | none => cases hr
    | some i =>
      simp only [BuildCall.run, projectRemap] at hr ⊢
      split at hr
      · cases hr
      · rename_i hn
        obtain ⟨ts, hts, hr⟩ := Res.bind_eq_ok.1 hr
        obtain ⟨⟨⟩, hk, hr⟩ := Res.bind_eq_ok.1 hr
        cases hr
        rw [if_neg hn, hts]
        rfl
  | cross l r =>
    cases l <;> cases r <;> try cases hr
    rename_i l r
    simp only [BuildCall.run, crossRemap] at hr ⊢
    obtain ⟨ls, hls, hr⟩ := Res.bind_eq_ok.1 hr
    obtain ⟨rs, hrs, hr⟩ := Res.bind_eq_ok.1 hr
    obtain ⟨⟨⟩, hk, hr⟩ := Res.bind_eq_ok.1 hr
    cases hr
    rw [hls, hrs]
    rfl
  | fetch i o n =>
    cases i with
    | none => cases hr
    | some i =>
      simp only [BuildCall.run, fetchRemap] at hr ⊢
      obtain ⟨ts, hts, hr⟩ := Res.bind_eq_ok.1 hr
      obtain ⟨⟨⟩, hk, hr⟩ := Res.bind_eq_ok.1 hr
      cases hr
      rw [hts]
      rfl
  | filter i e =>
    cases i with
    | none => cases hr
    | some i =>
      simp only [BuildCall.run, filterRemap] at hr ⊢
      split at hr
      · cases hr
      · rename_i hn
        obtain ⟨b, hb, hr⟩ := Res.bind_eq_ok.1 hr
        cases b with
        | false => cases hr
        | true =>
          obtain ⟨ts, hts, hr⟩ := Res.bind_eq_ok.1 hr
          obtain ⟨⟨⟩, hk, hr⟩ := Res.bind_eq_ok.1 hr
          cases hr
          rw [if_neg hn, hb, hts]
          rfl
  | join l r e p t =>
    cases l <;> cases r <;> try cases hr
    rename_i l r
    simp only [BuildCall.run, joinAndFilterRemap] at hr ⊢
    split at hr
    · cases hr
    · rename_i h1
      obtain ⟨b, hb, hr⟩ := Res.bind_eq_ok.1 hr
      split at hr
      · cases hr
      · rename_i h2
        split at hr
        · cases hr
        · rename_i h3
          obtain ⟨b', hb', hr⟩ := Res.bind_eq_ok.1 hr
          split at hr
          · cases hr
          · rename_i h4
            obtain ⟨ts, hts, hr⟩ := Res.bind_eq_ok.1 hr
            obtain ⟨⟨⟩, hk, hr⟩ := Res.bind_eq_ok.1 hr
            cases hr
            rw [if_neg h1, hb, Res.ok_bind, if_neg h2, if_neg h3, hb', Res.ok_bind, if_neg h4,
              join_direct_indep _ { mapping := m }, hts]
            rfl
  | sort i ss =>
    cases i with
    | none => cases hr
    | some i =>
      simp only [BuildCall.run, sortRemap] at hr ⊢
      obtain ⟨ts, hts, hr⟩ := Res.bind_eq_ok.1 hr
      obtain ⟨⟨⟩, hk, hr⟩ := Res.bind_eq_ok.1 hr
      split at hr
      · cases hr
      · rename_i hn
        cases hr
        rw [hts, Res.ok_bind, hc, Res.ok_bind, if_neg hn]
        rfl
  | set op is =>
    simp only [BuildCall.run, setRemap] at hr ⊢
    split at hr
    · cases hr
    · rename_i h1
      split at hr
      · cases hr
      · rename_i h2
        split at hr
        · cases hr
        · rename_i is' h3
          split at hr
          · cases hr
          · rename_i i rest
            obtain ⟨ts, hts, hr⟩ := Res.bind_eq_ok.1 hr
            obtain ⟨⟨⟩, hk, hr⟩ := Res.bind_eq_ok.1 hr
            obtain ⟨⟨⟩, hsame, hr⟩ := Res.bind_eq_ok.1 hr
            cases hr
            rw [if_neg h1, if_neg h2]
            simp only [hts, Res.ok_bind, hc, hsame]
            rfl
  | scan ns s =>
    simp only [BuildCall.run, namedScanRemap] at hr ⊢
    obtain ⟨⟨⟩, hk, hr⟩ := Res.bind_eq_ok.1 hr
    cases hr
    rfl
  | virt ns vs =>
    cases vs with
    | nil => cases hr
    | cons v vs =>
      simp only [BuildCall.run, virtualTableRemap] at hr ⊢
      split at hr
      · cases hr
      · rename_i hlen
        obtain ⟨⟨⟩, hk, hr⟩ := Res.bind_eq_ok.1 hr
        obtain ⟨ts, hts, hr⟩ := Res.bind_eq_ok.1 hr
        obtain ⟨⟨⟩, hrows, hr⟩ := Res.bind_eq_ok.1 hr
        cases hr
        rw [if_neg hlen, hc, Res.ok_bind, hts, Res.ok_bind, hrows]
        rfl
  | write i op ns s =>
    cases i with
    | none => cases hr
    | some i =>
      simp only [BuildCall.run, namedWriteRemap] at hr ⊢
      obtain ⟨ts, hts, hr⟩ := Res.bind_eq_ok.1 hr
      obtain ⟨⟨⟩, hk, hr⟩ := Res.bind_eq_ok.1 hr
      cases hr
      rw [hts]
      rfl
  | ctas i ns s =>
    cases i with
    | none => cases hr
    | some i =>
      simp only [BuildCall.run, ctasRemap] at hr ⊢
      obtain ⟨ts, hts, hr⟩ := Res.bind_eq_ok.1 hr
      obtain ⟨⟨⟩, hk, hr⟩ := Res.bind_eq_ok.1 hr
      cases hr
      rw [hts]
      rfl

/-- A covered call that succeeds without a mapping succeeds with one that passes the check against
its direct schema. -/
theorem run_complete (call : BuildCall) (m : Option (List Int32)) (h : call.Covered m)
    (hct : ∀ i ns s ts, call = .ctas (some i) ns s → i.recordType = .ok ts →
      ts.length = s.types.length)
    (r0 : Rel) (D : List Ty) (h0 : call.run none = .ok r0) (hD : r0.directOutputSchema = .ok D)
    (hk : checkRemap (Int32.ofNat D.length) m = .ok ()) : ∃ r, call.run m = .ok r := by
  have hc : ∀ n, checkRemap n none = .ok () := fun _ => rfl
  cases call with
  | project i es =>
    cases i with
    | none => cases h0
    | some i =>
      simp only [BuildCall.run, projectRemap] at h0 ⊢
      split at h0
      · cases h0
      · rename_i hn
        obtain ⟨ts, hts, hr⟩ := Res.bind_eq_ok.1 h0
        cases hr
        obtain ⟨us, hus⟩ := mapL_total' h
        have hl := mapL_length hus
        simp only [Rel.directOutputSchema] at hD
        rw [show i.directOutputSchema >>= i.common.remap = i.recordType from rfl, hts, Res.ok_bind,
          hus, Res.ok_bind] at hD
        cases hD
        rw [List.length_append, hl, Int32.ofNat_add] at hk
        rw [if_neg hn, hts, Res.ok_bind, fieldCount, hk]
        exact ⟨_, rfl⟩
  | cross l r =>
    cases l <;> cases r <;> try cases h0
    rename_i l r
    simp only [BuildCall.run, crossRemap] at h0 ⊢
    obtain ⟨ls, hls, hr⟩ := Res.bind_eq_ok.1 h0
    obtain ⟨rs, hrs, hr⟩ := Res.bind_eq_ok.1 hr
    cases hr
    simp only [Rel.directOutputSchema] at hD
    rw [show l.directOutputSchema >>= l.common.remap = l.recordType from rfl, hls,
      show r.directOutputSchema >>= r.common.remap = r.recordType from rfl, hrs] at hD
    cases hD
    rw [List.length_append, Int32.ofNat_add] at hk
    rw [hls, hrs, Res.ok_bind, Res.ok_bind, fieldCount, fieldCount, hk]
    exact ⟨_, rfl⟩
  | fetch i o n =>
    cases i with
    | none => cases h0
    | some i =>
      simp only [BuildCall.run, fetchRemap] at h0 ⊢
      obtain ⟨ts, hts, hr⟩ := Res.bind_eq_ok.1 h0
      cases hr
      simp only [Rel.directOutputSchema] at hD
      rw [show i.directOutputSchema >>= i.common.remap = i.recordType from rfl, hts] at hD
      cases hD
      rw [hts, Res.ok_bind, fieldCount, hk]
      exact ⟨_, rfl⟩
  | filter i e =>
    cases i with
    | none => cases h0
    | some i =>
      simp only [BuildCall.run, filterRemap] at h0 ⊢
      split at h0
      · cases h0
      · rename_i hn
        obtain ⟨b, hb, hr⟩ := Res.bind_eq_ok.1 h0
        cases b with
        | false => cases hr
        | true =>
          obtain ⟨ts, hts, hr⟩ := Res.bind_eq_ok.1 hr
          cases hr
          simp only [Rel.directOutputSchema] at hD
          rw [hts, Res.ok_bind, common_remap_none h] at hD
          cases hD
          rw [if_neg hn, hb]
          simp only [Res.ok_bind, Bool.not_true, Bool.false_eq_true, if_false, hts, fieldCount, hk]
          exact ⟨_, rfl⟩
  | join l r e p t =>
    cases l <;> cases r <;> try cases h0
    rename_i l r
    simp only [BuildCall.run, joinAndFilterRemap] at h0 ⊢
    split at h0
    · cases h0
    · rename_i h1
      obtain ⟨b, hb, hr⟩ := Res.bind_eq_ok.1 h0
      split at hr
      · cases hr
      · rename_i h2
        split at hr
        · cases hr
        · rename_i h3
          obtain ⟨b', hb', hr⟩ := Res.bind_eq_ok.1 hr
          split at hr
          · cases hr
          · rename_i h4
            obtain ⟨ts, hts, hr⟩ := Res.bind_eq_ok.1 hr
            cases hr
            rw [hD] at hts
            cases hts
            rw [if_neg h1, hb, Res.ok_bind, if_neg h2, if_neg h3, hb', Res.ok_bind, if_neg h4,
              join_direct_indep _ { mapping := none }, hD, Res.ok_bind, fieldCount, hk]
            exact ⟨_, rfl⟩
  | sort i ss =>
    cases i with
    | none => cases h0
    | some i =>
      simp only [BuildCall.run, sortRemap] at h0 ⊢
      obtain ⟨ts, hts, hr⟩ := Res.bind_eq_ok.1 h0
      rw [hc, Res.ok_bind] at hr
      split at hr
      · cases hr
      · rename_i hn
        cases hr
        simp only [Rel.directOutputSchema] at hD
        rw [show i.directOutputSchema >>= i.common.remap = i.recordType from rfl, hts] at hD
        cases hD
        rw [hts, Res.ok_bind, fieldCount, hk, Res.ok_bind, if_neg hn]
        exact ⟨_, rfl⟩
  | set op is =>
    simp only [BuildCall.run, setRemap] at h0 ⊢
    split at h0
    · cases h0
    · rename_i h1
      split at h0
      · cases h0
      · rename_i h2
        split at h0
        · cases h0
        · rename_i is' h3
          split at h0
          · cases h0
          · rename_i i rest
            obtain ⟨ts, hts, hr⟩ := Res.bind_eq_ok.1 h0
            obtain ⟨⟨⟩, -, hr⟩ := Res.bind_eq_ok.1 hr
            obtain ⟨⟨⟩, hsame, hr⟩ := Res.bind_eq_ok.1 hr
            cases hr
            simp only [Rel.directOutputSchema] at hD
            rw [show i.directOutputSchema >>= i.common.remap = i.recordType from rfl, hts] at hD
            cases hD
            rw [if_neg h1, if_neg h2]
            simp only [hts, Res.ok_bind, fieldCount, hk, hsame]
            exact ⟨_, rfl⟩
  | scan ns s =>
    simp only [BuildCall.run, namedScanRemap] at h0 ⊢
    cases h0
    simp only [Rel.directOutputSchema] at hD
    cases hD
    rw [hk]
    exact ⟨_, rfl⟩
  | virt ns vs =>
    cases vs with
    | nil => cases h0
    | cons v vs =>
      simp only [BuildCall.run, virtualTableRemap] at h0 ⊢
      split at h0
      · cases h0
      · rename_i hlen
        obtain ⟨⟨⟩, -, hr⟩ := Res.bind_eq_ok.1 h0
        obtain ⟨ts, hts, hr⟩ := Res.bind_eq_ok.1 hr
        obtain ⟨⟨⟩, hrows, hr⟩ := Res.bind_eq_ok.1 hr
        cases hr
        simp only [Rel.directOutputSchema] at hD
        cases hD
        rw [mapL_length hts, show v.length = ns.length from by simpa using hlen] at hk
        rw [if_neg hlen, hk, Res.ok_bind, hts, Res.ok_bind, hrows]
        exact ⟨_, rfl⟩
  | write i op ns s =>
    cases i with
    | none => cases h0
    | some i =>
      simp only [BuildCall.run, namedWriteRemap] at h0 ⊢
      obtain ⟨ts, hts, hr⟩ := Res.bind_eq_ok.1 h0
      cases hr
      have : ∀ n, checkRemap n m = .ok () := by
        intro n
        rw [checkRemap_iff]
        intro is his i hi
        rw [h is his] at hi
        cases hi
      rw [hts, Res.ok_bind, this]
      exact ⟨_, rfl⟩
  | ctas i ns s =>
    cases i with
    | none => cases h0
    | some i =>
      simp only [BuildCall.run, ctasRemap] at h0 ⊢
      obtain ⟨ts, hts, hr⟩ := Res.bind_eq_ok.1 h0
      cases hr
      simp only [Rel.directOutputSchema] at hD
      cases hD
      rw [hts, Res.ok_bind, fieldCount, hct i ns s ts rfl hts, hk]
      exact ⟨_, rfl⟩

end Verif
