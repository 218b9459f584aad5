import Verif.Spec.Derivation
import Verif.Props.Variants
/-!
# C32 Return-type expressions compute ordinary arithmetic
-/

namespace Verif

/-- C32 in full: a derivation whose program runs in ordinary arithmetic, starting from the values of
the integer parameters in the call, returns the final type with its variables replaced by their values
at the end. -/
def C32_statement : Prop :=
  ∀ (params : List FTy) (args : List Ty) (as : List (String × DExpr)) (final : FTy) (env env' : DEnv),
    FitsAll (fun _ _ => True) SameInteger False params args →
    (∀ x a b, CallInt params args x a → CallInt params args x b → a = b) →
    (∀ x v, env x = some v → ∃ c, CallInt params args x c ∧ v = .num c.toInt) → Runs env as env' →
    (∀ out, Instance (fun x a => env' x = some (.num a)) (fun _ _ => False) final out →
      FTy.returnType params args (.derivation as final) = .ok out) ∧
    (∀ out, FTy.returnType params args (.derivation as final) = .ok out →
      Instance (fun x a => env' x = some (.num a)) (fun _ _ => False) final out)

instance (a : Int) : Decidable (InInt64 a) := by unfold InInt64; infer_instance

/-- the Go value of a program value -/
def DVal.Is : DVal → GVal → Prop
  | .num a, .int i => a = i.toInt
  | .flag b, .bool b' => b = b'
  | _, _ => False

theorem DVal.num_is {a : Int} {g : GVal} (h : DVal.Is (.num a) g) : ∃ i, g = .int i ∧ a = i.toInt := by
  cases g <;> simp [DVal.Is] at h
  exact ⟨_, rfl, h⟩

theorem DVal.flag_is {a : Bool} {g : GVal} (h : DVal.Is (.flag a) g) : g = .bool a := by
  cases g <;> simp [DVal.Is] at h
  rw [h]

theorem inInt64_bmod {a : Int} (h : InInt64 a) : a.bmod (2 ^ 64) = a := by
  obtain ⟨h1, h2⟩ := h
  exact Int.bmod_eq_of_le (by omega) (by omega)

/-- C32 for expressions: the code computes the ordinary value. -/
theorem C32_expressions {env : DEnv} {st : GoMap String GVal}
    (hst : ∀ x v, env x = some v → ∃ g, st.get x = some g ∧ v.Is g) {e : DExpr} {v : DVal}
    (h : Denotes env e v) : ∃ g, e.evaluate st = .ok g ∧ v.Is g := by
  induction h with
  | num v => exact ⟨.int v, by rw [DExpr.evaluate], rfl⟩
  | name x v hx =>
    obtain ⟨g, hg, hv⟩ := hst x v hx
    exact ⟨g, by simp [DExpr.evaluate, hg], hv⟩
  | plus l r a b _ _ hr ih1 ih2 =>
    obtain ⟨g1, h1, e1⟩ := ih1
    obtain ⟨g2, h2, e2⟩ := ih2
    obtain ⟨i, rfl, rfl⟩ := DVal.num_is e1
    obtain ⟨j, rfl, rfl⟩ := DVal.num_is e2
    refine ⟨.int (i + j), by simp [DExpr.evaluate, h1, h2, DOp.apply, GVal.asInt], ?_⟩
    simp only [DVal.Is, Int64.toInt_add]
    rw [inInt64_bmod hr]
  | minus l r a b _ _ hr ih1 ih2 =>
    obtain ⟨g1, h1, e1⟩ := ih1
    obtain ⟨g2, h2, e2⟩ := ih2
    obtain ⟨i, rfl, rfl⟩ := DVal.num_is e1
    obtain ⟨j, rfl, rfl⟩ := DVal.num_is e2
    refine ⟨.int (i - j), by simp [DExpr.evaluate, h1, h2, DOp.apply, GVal.asInt], ?_⟩
    simp only [DVal.Is, Int64.toInt_sub]
    rw [inInt64_bmod hr]
  | multiply l r a b _ _ hr ih1 ih2 =>
    obtain ⟨g1, h1, e1⟩ := ih1
    obtain ⟨g2, h2, e2⟩ := ih2
    obtain ⟨i, rfl, rfl⟩ := DVal.num_is e1
    obtain ⟨j, rfl, rfl⟩ := DVal.num_is e2
    refine ⟨.int (i * j), by simp [DExpr.evaluate, h1, h2, DOp.apply, GVal.asInt], ?_⟩
    simp only [DVal.Is, Int64.toInt_mul]
    rw [inInt64_bmod hr]
  | divide l r a b _ _ hz hr ih1 ih2 =>
    obtain ⟨g1, h1, e1⟩ := ih1
    obtain ⟨g2, h2, e2⟩ := ih2
    obtain ⟨i, rfl, rfl⟩ := DVal.num_is e1
    obtain ⟨j, rfl, rfl⟩ := DVal.num_is e2
    have hj : j ≠ 0 := by rintro rfl; exact hz rfl
    refine ⟨.int (i / j), by simp [DExpr.evaluate, h1, h2, DOp.apply, GVal.asInt, hj], ?_⟩
    simp only [DVal.Is, Int64.toInt_div]
    rw [inInt64_bmod hr]
  | lt l r a b _ _ ih1 ih2 =>
    obtain ⟨g1, h1, e1⟩ := ih1
    obtain ⟨g2, h2, e2⟩ := ih2
    obtain ⟨i, rfl, rfl⟩ := DVal.num_is e1
    obtain ⟨j, rfl, rfl⟩ := DVal.num_is e2
    exact ⟨.bool (decide (i < j)), by simp [DExpr.evaluate, h1, h2, DOp.apply, GVal.asInt],
      by simp [DVal.Is, Int64.lt_iff_toInt_lt]⟩
  | lte l r a b _ _ ih1 ih2 =>
    obtain ⟨g1, h1, e1⟩ := ih1
    obtain ⟨g2, h2, e2⟩ := ih2
    obtain ⟨i, rfl, rfl⟩ := DVal.num_is e1
    obtain ⟨j, rfl, rfl⟩ := DVal.num_is e2
    exact ⟨.bool (decide (i ≤ j)), by simp [DExpr.evaluate, h1, h2, DOp.apply, GVal.asInt],
      by simp [DVal.Is, Int64.le_iff_toInt_le]⟩
  | gt l r a b _ _ ih1 ih2 =>
    obtain ⟨g1, h1, e1⟩ := ih1
    obtain ⟨g2, h2, e2⟩ := ih2
    obtain ⟨i, rfl, rfl⟩ := DVal.num_is e1
    obtain ⟨j, rfl, rfl⟩ := DVal.num_is e2
    exact ⟨.bool (decide (i > j)), by simp [DExpr.evaluate, h1, h2, DOp.apply, GVal.asInt],
      by simp [DVal.Is, Int64.lt_iff_toInt_lt]⟩
  | gte l r a b _ _ ih1 ih2 =>
    obtain ⟨g1, h1, e1⟩ := ih1
    obtain ⟨g2, h2, e2⟩ := ih2
    obtain ⟨i, rfl, rfl⟩ := DVal.num_is e1
    obtain ⟨j, rfl, rfl⟩ := DVal.num_is e2
    exact ⟨.bool (decide (i ≥ j)), by simp [DExpr.evaluate, h1, h2, DOp.apply, GVal.asInt],
      by simp [DVal.Is, Int64.le_iff_toInt_le]⟩
  | eq l r a b _ _ ih1 ih2 =>
    obtain ⟨g1, h1, e1⟩ := ih1
    obtain ⟨g2, h2, e2⟩ := ih2
    obtain ⟨i, rfl, rfl⟩ := DVal.num_is e1
    obtain ⟨j, rfl, rfl⟩ := DVal.num_is e2
    exact ⟨.bool (decide (i = j)), by simp [DExpr.evaluate, h1, h2, DOp.apply, GVal.asInt],
      by simp [DVal.Is, ← Int64.toInt_inj]⟩
  | neq l r a b _ _ ih1 ih2 =>
    obtain ⟨g1, h1, e1⟩ := ih1
    obtain ⟨g2, h2, e2⟩ := ih2
    obtain ⟨i, rfl, rfl⟩ := DVal.num_is e1
    obtain ⟨j, rfl, rfl⟩ := DVal.num_is e2
    exact ⟨.bool (decide (i ≠ j)), by simp [DExpr.evaluate, h1, h2, DOp.apply, GVal.asInt],
      by simp [DVal.Is, ← Int64.toInt_inj]⟩
  | and l r a b _ _ ih1 ih2 =>
    obtain ⟨g1, h1, e1⟩ := ih1
    obtain ⟨g2, h2, e2⟩ := ih2
    cases DVal.flag_is e1
    cases DVal.flag_is e2
    exact ⟨.bool (a && b), by cases a <;> simp [DExpr.evaluate, h1, h2, DOp.apply, GVal.asBool], rfl⟩
  | or l r a b _ _ ih1 ih2 =>
    obtain ⟨g1, h1, e1⟩ := ih1
    obtain ⟨g2, h2, e2⟩ := ih2
    cases DVal.flag_is e1
    cases DVal.flag_is e2
    exact ⟨.bool (a || b), by cases a <;> simp [DExpr.evaluate, h1, h2, DOp.apply, GVal.asBool], rfl⟩
  | not e a _ ih =>
    obtain ⟨g1, h1, e1⟩ := ih
    cases DVal.flag_is e1
    exact ⟨.bool (!a), by simp [DExpr.evaluate, h1, GVal.asBool], rfl⟩
  | «then» b c t e v _ _ ih1 ih2 =>
    obtain ⟨g1, h1, e1⟩ := ih1
    obtain ⟨g2, h2, e2⟩ := ih2
    cases DVal.flag_is e1
    exact ⟨g2, by simp [DExpr.evaluate, h1, GVal.asBool, h2], e2⟩
  | «else» b c t e v _ _ ih1 ih2 =>
    obtain ⟨g1, h1, e1⟩ := ih1
    obtain ⟨g2, h2, e2⟩ := ih2
    cases DVal.flag_is e1
    exact ⟨g2, by simp [DExpr.evaluate, h1, GVal.asBool, h2], e2⟩
  | abs e a _ hr ih =>
    obtain ⟨g1, h1, e1⟩ := ih
    obtain ⟨i, rfl, rfl⟩ := DVal.num_is e1
    refine ⟨.int (if i < 0 then -i else i), by simp [DExpr.evaluate, DExpr.evaluateList, h1, callFn, Res.index, GVal.asInt], ?_⟩
    simp only [DVal.Is]
    split
    · rename_i hlt
      have : i.toInt < 0 := by simpa using Int64.lt_iff_toInt_lt.1 hlt
      rw [Int64.toInt_neg, inInt64_bmod]
      · omega
      · have := hr; unfold InInt64 at this ⊢; omega
    · rename_i hlt
      have : ¬ i.toInt < 0 := fun hc => hlt (Int64.lt_iff_toInt_lt.2 (by simpa using hc))
      omega
  | max l r a b _ _ ih1 ih2 =>
    obtain ⟨g1, h1, e1⟩ := ih1
    obtain ⟨g2, h2, e2⟩ := ih2
    obtain ⟨i, rfl, rfl⟩ := DVal.num_is e1
    obtain ⟨j, rfl, rfl⟩ := DVal.num_is e2
    refine ⟨.int (max i j), by simp [DExpr.evaluate, DExpr.evaluateList, h1, h2, callFn, Res.index, GVal.asInt], ?_⟩
    simp only [DVal.Is]
    show _ = Int64.toInt (if i ≤ j then j else i)
    split
    · rename_i hle; have := Int64.le_iff_toInt_le.1 hle; omega
    · rename_i hle; have : ¬ i.toInt ≤ j.toInt := fun h => hle (Int64.le_iff_toInt_le.2 h)
      omega
  | min l r a b _ _ ih1 ih2 =>
    obtain ⟨g1, h1, e1⟩ := ih1
    obtain ⟨g2, h2, e2⟩ := ih2
    obtain ⟨i, rfl, rfl⟩ := DVal.num_is e1
    obtain ⟨j, rfl, rfl⟩ := DVal.num_is e2
    refine ⟨.int (min i j), by simp [DExpr.evaluate, DExpr.evaluateList, h1, h2, callFn, Res.index, GVal.asInt], ?_⟩
    simp only [DVal.Is]
    show _ = Int64.toInt (if i ≤ j then i else j)
    split
    · rename_i hle; have := Int64.le_iff_toInt_le.1 hle; omega
    · rename_i hle; have : ¬ i.toInt ≤ j.toInt := fun h => hle (Int64.le_iff_toInt_le.2 h)
      omega

/-- an expression with a value: `max(6, 38 - (P - 3)) / 4` for P = 10 -/
example : Denotes (fun x => if x = "P" then some (.num 10) else none)
    (.bin .divide (.call "max" [.num 6, .bin .minus (.num 38) (.bin .minus (.name "P") (.num 3))])
      (.num 4)) (.num 7) := by
  have h1 : Denotes (fun x => if x = "P" then some (.num 10) else none)
      (.bin .minus (.name "P") (.num 3)) (.num (10 - 3)) :=
    .minus _ _ _ _ (.name _ _ (by simp)) (.num 3) (by decide)
  have h2 := Denotes.minus _ _ _ _ (Denotes.num (env := fun x => if x = "P" then some (.num 10) else none)
    38) h1 (by decide)
  exact .divide _ _ _ _ (.max _ _ _ _ (.num 6) h2) (.num 4) (by decide) (by decide)

/-- C32 for programs: after the assignments every variable has the value of its latest assignment. -/
theorem C32_assignments {env env' : DEnv} {as : List (String × DExpr)} (h : Runs env as env') :
    ∀ {st : GoMap String GVal}, (∀ x v, env x = some v → ∃ g, st.get x = some g ∧ v.Is g) →
      ∃ st', assignAll as st = .ok st' ∧ ∀ x v, env' x = some v → ∃ g, st'.get x = some g ∧ v.Is g := by
  induction h with
  | done env => intro st hst; exact ⟨st, rfl, hst⟩
  | assign env env' x e v as he _ ih =>
    intro st hst
    obtain ⟨g, hg, hv⟩ := C32_expressions hst he
    obtain ⟨st', h1, h2⟩ := ih (st := st.set x g) (by
      intro y w hy
      rw [GoMap.get_set]
      unfold DEnv.assign at hy
      split at hy
      · rename_i hyx
        subst hyx
        simp at hy; subst hy
        exact ⟨g, by simp, hv⟩
      · rename_i hyx
        obtain ⟨g', h3, h4⟩ := hst y w hy
        refine ⟨g', ?_, h4⟩
        split
        · rename_i hc; exact absurd hc hyx
        · exact h3)
    exact ⟨st', by simp [assignAll, hg, h1], h2⟩

/-- a program with two assignments to one variable -/
example : ∃ env', Runs (fun x => if x = "P" then some (.num 10) else none)
    [("A", .bin .plus (.name "P") (.num 1)), ("A", .bin .multiply (.name "A") (.name "A"))] env' ∧
    env' "A" = some (.num 121) := by
  refine ⟨_, .assign _ _ _ _ _ _ (.plus _ _ 10 1 (.name _ _ (by simp)) (.num 1) (by decide))
    (.assign _ _ _ _ _ _ (.multiply _ _ 11 11 (.name _ _ (by simp [DEnv.assign]))
      (.name _ _ (by simp [DEnv.assign])) (by decide)) (.done _)), by simp [DEnv.assign]⟩

/-! ### The values of the parameters -/

mutual
theorem noInts_hasParam : ∀ (p : FTy), p.NoInts → p.hasParam = false
  | .prim .., _ => rfl
  | .any .., _ => rfl
  | .enum .., _ => rfl
  | .single _ _ p, h => by
    obtain ⟨c, rfl⟩ := h
    simp [FTy.hasParam, IntParam.isVar]
  | .decimal _ p s, h => by
    obtain ⟨⟨c, rfl⟩, c', rfl⟩ := h
    simp [FTy.hasParam, IntParam.isVar]
  | .list _ t, h => by simp only [FTy.NoInts] at h; simp [FTy.hasParam, noInts_hasParam t h]
  | .map _ k v, h => by
    simp only [FTy.NoInts] at h; simp [FTy.hasParam, noInts_hasParam k h.1, noInts_hasParam v h.2]
  | .struct _ ts, h => by
    simp only [FTy.NoInts] at h; simp [FTy.hasParam, noInts_anyHasParam ts h]
  | .func _ ps r, h => by
    simp only [FTy.NoInts] at h
    simp [FTy.hasParam, noInts_anyHasParam ps h.1, noInts_hasParam r h.2]
  | .udt .., h => by simp [FTy.NoInts] at h
  | .derivation _ t, h => by simp only [FTy.NoInts] at h; simp [FTy.hasParam, noInts_hasParam t h]
theorem noInts_anyHasParam : ∀ (ps : List FTy), FTy.NoIntsList ps → FTy.anyHasParam ps = false
  | [], _ => rfl
  | p :: ps, h => by
    simp only [FTy.NoIntsList] at h
    simp [FTy.anyHasParam, noInts_hasParam p h.1, noInts_anyHasParam ps h.2]
end

theorem noIntsList_mem {p : FTy} : ∀ {ps : List FTy}, FTy.NoIntsList ps → p ∈ ps → p.NoInts
  | [], _, h => by simp at h
  | q :: ps, h, hm => by
    simp only [FTy.NoIntsList] at h
    simp at hm
    rcases hm with rfl | hm
    · exact h.1
    · exact noIntsList_mem h.2 hm

theorem filter_hasParam {ps : List FTy} (h : ∀ p ∈ ps, p.NoInts) : ps.filter FTy.hasParam = [] := by
  rw [List.filter_eq_nil_iff]
  intro p hp
  simp [noInts_hasParam p (h p hp)]

theorem noInts_absParams : ∀ (p : FTy), p.NoInts → p.absParams = []
  | .prim .., _ => rfl
  | .any .., _ => rfl
  | .enum .., _ => rfl
  | .single _ _ p, h => by
    obtain ⟨c, rfl⟩ := h
    simp [FTy.absParams, IntParam.isVar]
  | .decimal _ p s, h => by
    obtain ⟨⟨c, rfl⟩, c', rfl⟩ := h
    simp [FTy.absParams, IntParam.isVar]
  | .list _ t, h => by simp only [FTy.NoInts] at h; simp [FTy.absParams, noInts_hasParam t h]
  | .map _ k v, h => by
    simp only [FTy.NoInts] at h
    simp [FTy.absParams, noInts_hasParam k h.1, noInts_hasParam v h.2]
  | .struct _ ts, h => by
    simp only [FTy.NoInts] at h
    rw [FTy.absParams, filter_hasParam (fun p hp => noIntsList_mem h hp)]; rfl
  | .func _ ps r, h => by
    simp only [FTy.NoInts] at h
    rw [FTy.absParams, filter_hasParam]
    · rfl
    · intro p hp
      simp at hp
      rcases hp with hp | rfl
      · exact noIntsList_mem h.1 hp
      · exact h.2
  | .udt .., h => by simp [FTy.NoInts] at h
  | .derivation _ t, h => by
    simp only [FTy.NoInts] at h; rw [FTy.absParams]; exact noInts_absParams t h

theorem noInts_intAt {x : String} {p : FTy} {t : Ty} {c : Int32} (h : IntAt x p t c) : ¬ p.NoInts := by
  induction h with
  | fixed => simp [FTy.NoInts]
  | prec => simp [FTy.NoInts]
  | precision => simp [FTy.NoInts]
  | scale => simp [FTy.NoInts]
  | list _ _ _ _ _ _ _ ih => simpa only [FTy.NoInts] using ih
  | mapKey _ _ _ _ _ _ _ _ _ ih => simp only [FTy.NoInts]; exact fun h => ih h.1
  | mapValue _ _ _ _ _ _ _ _ _ ih => simp only [FTy.NoInts]; exact fun h => ih h.2
  | struct _ _ _ _ _ _ i p t hp _ _ ih =>
    simp only [FTy.NoInts]; exact fun h => ih (noIntsList_mem h (List.mem_of_getElem? hp))
  | funcParam _ _ _ _ _ _ _ i p t hp _ _ ih =>
    simp only [FTy.NoInts]; exact fun h => ih (noIntsList_mem h.1 (List.mem_of_getElem? hp))
  | funcReturn _ _ _ _ _ _ _ _ ih => simp only [FTy.NoInts]; exact fun h => ih h.2
  | derivation _ _ _ _ _ ih => simpa only [FTy.NoInts] using ih

/-- the inner loop succeeds if all values for a name are the same -/
theorem bindNames_ok {W : String → GVal → Prop} (hW : ∀ x v w, W x v → W x w → v.same w = true) :
    ∀ (ps : List AbsParam) (vs : List GVal) (st : GoMap String GVal),
    (∀ x v, st.get x = some v → W x v) →
    (∀ (i : Nat) x v, ps[i]? = some (.int (.var x)) → vs[i]? = some v → W x v) →
    ∃ st', bindNames ps vs st = .ok st' ∧ ∀ x v, st'.get x = some v → W x v
  | [], vs, st, hst, _ => ⟨st, by cases vs <;> rfl, hst⟩
  | p :: ps, [], st, hst, _ => ⟨st, by
      cases p with
      | int q => cases q <;> rfl
      | _ => rfl, hst⟩
  | p :: ps, v :: vs, st, hst, h => by
    have rest := fun st hst => bindNames_ok hW ps vs st hst
      (fun i x w hx hw => h (i + 1) x w (by simpa using hx) (by simpa using hw))
    cases p with
    | ty => exact rest st hst
    | udtParam => exact rest st hst
    | int q =>
      cases q with
      | concrete => exact rest st hst
      | var x =>
        have hx := h 0 x v (by simp) (by simp)
        obtain ⟨st', h1, h2⟩ := rest (st.set x v) (by
          intro y w hy
          rw [GoMap.get_set] at hy
          split at hy
          · rename_i he; subst he; simp at hy; subst hy; exact hx
          · exact hst y w hy)
        refine ⟨st', ?_, h2⟩
        simp only [bindNames]
        cases hg : st.get x with
        | none => exact h1
        | some w => simp [hW x w v (hst x w hg) hx, h1]

/-- `buildTypeParametersNameValueMap` succeeds if all values for a name are the same -/
theorem buildMap_ok {W : String → GVal → Prop} (hW : ∀ x v w, W x v → W x w → v.same w = true) :
    ∀ (ps : List FTy) (ts : List Ty) (st : GoMap String GVal), ps.length ≤ ts.length →
    (∀ x v, st.get x = some v → W x v) →
    (∀ (i : Nat) p t, ps[i]? = some p → ts[i]? = some t →
      (p.absParams = [] ∨ p.absParams.length = t.getParameters.length) ∧
      ∀ (j : Nat) x v, p.absParams[j]? = some (.int (.var x)) → t.getParameters[j]? = some v → W x v) →
    ∃ st', buildNameValueMap ps ts st = .ok st' ∧ ∀ x v, st'.get x = some v → W x v
  | [], ts, st, _, hst, _ => ⟨st, rfl, hst⟩
  | p :: ps, [], st, hl, hst, h => by simp at hl
  | p :: ps, t :: ts, st, hl, hst, h => by
    have rest := fun st hst => buildMap_ok hW ps ts st (by simpa using hl) hst
      (fun i p t hp ht => h (i + 1) p t (by simpa using hp) (by simpa using ht))
    obtain ⟨h1, h2⟩ := h 0 p t (by simp) (by simp)
    simp only [buildNameValueMap]
    split
    · exact rest st hst
    · rename_i hne
      rcases h1 with h1 | h1
      · simp [h1] at hne
      · obtain ⟨st', h3, h4⟩ := bindNames_ok hW p.absParams t.getParameters st hst h2
        obtain ⟨st'', h5, h6⟩ := rest st' h4
        exact ⟨st'', by simp [h1, h3, h5], h6⟩

theorem fitsAll_get {N : String → UInt32 → Prop} {I : Int32 → Int64 → Prop} {S : Prop} :
    ∀ {ps : List FTy} {ts : List Ty}, FitsAll N I S ps ts → ps.length = ts.length ∧
      ∀ (i : Nat) p t, ps[i]? = some p → ts[i]? = some t → Fits N I S p t
  | [], [], _ => ⟨rfl, by simp⟩
  | p :: ps, t :: ts, .cons _ _ _ _ h hs => by
    obtain ⟨h1, h2⟩ := fitsAll_get hs
    refine ⟨by simp [h1], ?_⟩
    intro i q u hq hu
    cases i with
    | zero => simp at hq hu; subst hq hu; exact h
    | succ i => exact h2 i q u (by simpa using hq) (by simpa using hu)

/-- where a flat declared type has a variable, and what the code finds there -/
theorem flat_value {N : String → UInt32 → Prop} {I : Int32 → Int64 → Prop} {S : Prop} {p : FTy} {t : Ty}
    (hf : p.IsFlat) (h : Fits N I S p t) :
    (p.absParams = [] ∨ p.absParams.length = t.getParameters.length) ∧
    ∀ (j : Nat) x v, p.absParams[j]? = some (.int (.var x)) → t.getParameters[j]? = some v →
      ∃ c, IntAt x p t c ∧ ((∃ k n, p = .single (.prec k) n (.var x)) ∧ v = .prec c ∨
        ((∃ k n, p = .single (.fixed k) n (.var x)) ∨ (∃ n s, p = .decimal n (.var x) s) ∨
          ∃ n s, p = .decimal n s (.var x)) ∧ v = .int (Int64.ofInt c.toInt)) := by
  cases h with
  | fixed k n p n' v' l =>
    refine ⟨?_, ?_⟩
    · cases p <;> simp [FTy.absParams, IntParam.isVar, Ty.getParameters]
    · intro j x v hx hv
      cases p with
      | concrete => simp [FTy.absParams, IntParam.isVar] at hx
      | var y =>
        match j with
        | 0 =>
          simp [FTy.absParams, IntParam.isVar] at hx
          subst hx
          simp [Ty.getParameters] at hv
          exact ⟨l, .fixed .., .inr ⟨.inl ⟨_, _, rfl⟩, hv.symm⟩⟩
        | j + 1 => simp [FTy.absParams, IntParam.isVar] at hx
  | prec k n p n' v' l =>
    refine ⟨?_, ?_⟩
    · cases p <;> simp [FTy.absParams, IntParam.isVar, Ty.getParameters]
    · intro j x v hx hv
      cases p with
      | concrete => simp [FTy.absParams, IntParam.isVar] at hx
      | var y =>
        match j with
        | 0 =>
          simp [FTy.absParams, IntParam.isVar] at hx
          subst hx
          simp [Ty.getParameters] at hv
          exact ⟨l, .prec .., .inl ⟨⟨_, _, rfl⟩, hv.symm⟩⟩
        | j + 1 => simp [FTy.absParams, IntParam.isVar] at hx
  | decimal n p s n' v' s' p' =>
    have key : (FTy.decimal n p s).absParams = [] ∨ (FTy.decimal n p s).absParams = [.int p, .int s] := by
      simp only [FTy.absParams]; split <;> simp
    refine ⟨?_, ?_⟩
    · rcases key with h | h <;> simp [h, Ty.getParameters]
    · intro j x v hx hv
      rcases key with h | h <;> rw [h] at hx
      · simp at hx
      · match j with
        | 0 =>
          simp at hx; subst hx
          simp [Ty.getParameters] at hv
          exact ⟨p', .precision .., .inr ⟨.inr (.inl ⟨_, _, rfl⟩), hv.symm⟩⟩
        | 1 =>
          simp at hx; subst hx
          simp [Ty.getParameters] at hv
          exact ⟨s', .scale .., .inr ⟨.inr (.inr ⟨_, _, rfl⟩), hv.symm⟩⟩
        | j + 2 => simp at hx
  | _ => simp [FTy.IsFlat] at hf

/-- the symbol table of a call -/
theorem symbols {N : String → UInt32 → Prop} {I : Int32 → Int64 → Prop} {S : Prop}
    {params : List FTy} {args : List Ty} (hfit : FitsAll N I S params args)
    (hsame : ∀ x a b, CallInt params args x a → CallInt params args x b → a = b)
    (hflat : ∀ p ∈ params, p.IsFlat ∨ p.NoInts)
    (hkind : ∀ x, IsTimePrecision params x → ¬ IsLength params x) :
    ∃ st, buildNameValueMap params args .empty = .ok st ∧
      (∀ x c, CallInt params args x c → ∃ v, st.get x = some v) ∧
      ∀ x v, st.get x = some v → ∃ c, CallInt params args x c ∧
        (IsTimePrecision params x ∧ v = .prec c ∨ IsLength params x ∧ v = .int (Int64.ofInt c.toInt)) := by
  obtain ⟨hlen, hget⟩ := fitsAll_get hfit
  let W : String → GVal → Prop := fun x v => ∃ c, CallInt params args x c ∧
        (IsTimePrecision params x ∧ v = .prec c ∨ IsLength params x ∧ v = .int (Int64.ofInt c.toInt))
  have hW : ∀ x v w, W x v → W x w → v.same w = true := by
    rintro x v w ⟨c, hc, h⟩ ⟨d, hd, h'⟩
    have := hsame x c d hc hd
    subst this
    rcases h with ⟨h, rfl⟩ | ⟨h, rfl⟩ <;> rcases h' with ⟨h', rfl⟩ | ⟨h', rfl⟩
    · simp [GVal.same]
    · exact absurd h' (hkind x h)
    · exact absurd h (hkind x h')
    · simp [GVal.same]
  obtain ⟨st, h1, h2⟩ := buildMap_ok hW params args .empty (by omega) (by simp [GoMap.get_empty]) (by
    intro i p t hp ht
    rcases hflat p (List.mem_of_getElem? hp) with hf | hn
    · obtain ⟨h1, h2⟩ := flat_value hf (hget i p t hp ht)
      refine ⟨h1, ?_⟩
      intro j x v hx hv
      obtain ⟨c, hc, h3⟩ := h2 j x v hx hv
      refine ⟨c, ⟨i, p, t, hp, ht, hc⟩, ?_⟩
      have hm := List.mem_of_getElem? hp
      rcases h3 with ⟨⟨k, n, rfl⟩, rfl⟩ | ⟨h3, rfl⟩
      · exact .inl ⟨⟨k, n, hm⟩, rfl⟩
      · refine .inr ⟨?_, rfl⟩
        rcases h3 with ⟨k, n, rfl⟩ | ⟨k, n, rfl⟩ | ⟨k, n, rfl⟩
        · exact .inl ⟨k, n, hm⟩
        · exact .inr (.inl ⟨k, n, hm⟩)
        · exact .inr (.inr ⟨k, n, hm⟩)
    · rw [noInts_absParams p hn]
      exact ⟨.inl rfl, by simp⟩)
  refine ⟨st, h1, ?_, h2⟩
  rintro x c ⟨i, p, t, hp, ht, hc⟩
  rcases hflat p (List.mem_of_getElem? hp) with hf | hn
  · obtain ⟨_, j, v, hj, hv, _⟩ := flat_intAt hc hf
    exact ⟨v, (buildMap_spec params args .empty st h1).2 i p t hp ht j x v hj hv⟩
  · exact absurd hn (noInts_intAt hc)

theorem toInt32_ofInt (c : Int32) : (Int64.ofInt c.toInt).toInt = c.toInt := by
  have h1 := Int32.le_toInt c
  have h2 := Int32.toInt_lt c
  exact Int64.toInt_ofInt_of_le (by omega) (by omega)

theorem ofInt_toInt32 (i : Int64) (c : Int32) (h : i.toInt = c.toInt) : i.toInt32 = c := by
  apply Int32.toInt_inj.1
  rw [Int64.toInt_toInt32, h]
  have h1 := Int32.le_toInt c
  have h2 := Int32.toInt_lt c
  exact Int.bmod_eq_of_le (by omega) (by omega)

/-- the parameters of a flat final type -/
theorem final_flat {st : GoMap String GVal} {env : DEnv} {final : FTy} {out : Ty}
    (hst : ∀ x v, env x = some v → ∃ g, st.get x = some g ∧ v.Is g)
    (h : Instance (fun x a => env x = some (.num a)) (fun _ _ => False) final out)
    (hf : final.IsFlat) :
    (finalParams st final.absParams >>= fun vs => final.withParameters vs) = .ok out := by
  have var : ∀ {x : String} {c : Int32}, env x = some (.num c.toInt) →
      ∃ i : Int64, st.get x = some (.int i) ∧ i.toInt32 = c := by
    intro x c hx
    obtain ⟨g, hg, hi⟩ := hst x _ hx
    obtain ⟨i, rfl, hi⟩ := DVal.num_is hi
    exact ⟨i, hg, ofInt_toInt32 i c hi.symm⟩
  cases h with
  | fixed k n p c hs =>
    cases p with
    | concrete c' =>
      simp only [IntParam.Stands] at hs; subst hs
      simp [FTy.absParams, IntParam.isVar, finalParams, FTy.withParameters, singleWithParameters, Single.make]
    | var x =>
      obtain ⟨i, hi, hc⟩ := var hs
      simp [FTy.absParams, IntParam.isVar, finalParams, hi, FTy.withParameters, singleWithParameters,
        Single.make, hc]
  | prec k n p c hs =>
    cases p with
    | concrete c' =>
      simp only [IntParam.Stands] at hs; subst hs
      simp [FTy.absParams, IntParam.isVar, finalParams, FTy.withParameters, singleWithParameters, Single.make]
    | var x =>
      obtain ⟨i, hi, hc⟩ := var hs
      simp [FTy.absParams, IntParam.isVar, finalParams, hi, FTy.withParameters, singleWithParameters,
        Single.make, hc]
  | decimal n p s a b hp hs =>
    cases p with
    | concrete c' =>
      simp only [IntParam.Stands] at hp; subst hp
      cases s with
      | concrete c'' =>
        simp only [IntParam.Stands] at hs; subst hs
        simp [FTy.absParams, IntParam.isVar, finalParams, FTy.withParameters, decimalWithParameters]
      | var x =>
        obtain ⟨i, hi, hc⟩ := var hs
        simp [FTy.absParams, IntParam.isVar, finalParams, hi, FTy.withParameters, decimalWithParameters,
          hc]
    | var y =>
      obtain ⟨j, hj, hd⟩ := var hp
      cases s with
      | concrete c'' =>
        simp only [IntParam.Stands] at hs; subst hs
        simp [FTy.absParams, IntParam.isVar, finalParams, hj, FTy.withParameters, decimalWithParameters,
          hd]
      | var x =>
        obtain ⟨i, hi, hc⟩ := var hs
        simp [FTy.absParams, IntParam.isVar, finalParams, hj, hi, FTy.withParameters,
          decimalWithParameters, hc, hd]
  | _ => simp [FTy.IsFlat] at hf

/-- C32 for calls whose parameters have their integer variables at the top, programs that do not use
time precisions, and a final type that is a decimal or has one integer parameter. Missing: nested
parameters and final types (`C32_negation_nested`), time precisions (`C32_negation_time`), and results
beyond int32 (`C32_negation_wrap`). -/
theorem C32_return_partial {N : String → UInt32 → Prop} {I : Int32 → Int64 → Prop} {S : Prop}
    {params : List FTy} {args : List Ty} {as : List (String × DExpr)} {final : FTy} {env env' : DEnv}
    (hfit : FitsAll N I S params args)
    (hsame : ∀ x a b, CallInt params args x a → CallInt params args x b → a = b)
    (hflat : ∀ p ∈ params, p.IsFlat ∨ p.NoInts)
    (hkind : ∀ x, IsTimePrecision params x → ¬ IsLength params x)
    (henv : ∀ x v, env x = some v → ¬ IsTimePrecision params x ∧
      ∃ c, CallInt params args x c ∧ v = .num c.toInt)
    (hrun : Runs env as env') (hfinal : final.IsFlat) {out : Ty}
    (hout : Instance (fun x a => env' x = some (.num a)) (fun _ _ => False) final out) :
    FTy.returnType params args (.derivation as final) = .ok out := by
  obtain ⟨st, h1, h2, h3⟩ := symbols hfit hsame hflat hkind
  obtain ⟨st', h4, h5⟩ := C32_assignments hrun (st := st) (by
    intro x v hx
    obtain ⟨ht, c, hc, rfl⟩ := henv x v hx
    obtain ⟨g, hg⟩ := h2 x c hc
    refine ⟨g, hg, ?_⟩
    obtain ⟨d, hd, h | h⟩ := h3 x g hg
    · exact absurd h.1 ht
    · rw [h.2, hsame x c d hc hd]
      simp only [DVal.Is]
      exact (toInt32_ofInt d).symm)
  have := final_flat h5 hout hfinal
  rw [FTy.returnType]
  simp only [derivedParams, h1, h4, Res.ok_bind]
  exact this

/-- decimal addition: `decimal<max(S1,S2) + max(P1-S1,P2-S2) + 1, max(S1,S2)>`, cut short -/
example : FTy.returnType [.decimal 2 (.var "P1") (.var "S1"), .decimal 2 (.var "P2") (.var "S2")]
    [.decimal 2 0 2 10, .decimal 2 0 4 8]
    (.derivation [("S", .call "max" [.name "S1", .name "S2"])] (.decimal 2 (.concrete 38) (.var "S"))) =
      .ok (.decimal 2 0 4 38) := by
  refine C32_return_partial (N := fun _ _ => True) (I := SameInteger) (S := False)
    (env := fun x => if x = "S1" then some (.num 2) else if x = "S2" then some (.num 4) else none)
    (.cons _ _ _ _ (.decimal _ (.var _) (.var _) _ _ _ _ (by simp) trivial trivial)
      (.cons _ _ _ _ (.decimal _ (.var _) (.var _) _ _ _ _ (by simp) trivial trivial) .nil)) ?_ ?_ ?_ ?_
    (.assign _ _ _ _ _ _ (.max _ _ 2 4 (.name _ _ (by simp)) (.name _ _ (by simp))) (.done _)) (final := .decimal 2 (.concrete 38) (.var "S")) trivial
    (.decimal _ _ _ _ _ rfl (by simp only [IntParam.Stands]; rfl))
  · have key : ∀ x a, CallInt [.decimal 2 (.var "P1") (.var "S1"), .decimal 2 (.var "P2") (.var "S2")]
        [.decimal 2 0 2 10, .decimal 2 0 4 8] x a →
        (x = "P1" ∧ a = 10) ∨ (x = "S1" ∧ a = 2) ∨ (x = "P2" ∧ a = 8) ∨ (x = "S2" ∧ a = 4) := by
      rintro x a ⟨i, p, t, hp, ht, h⟩
      match i, hp, ht with
      | 0, hp, ht => simp at hp ht; subst hp ht; cases h <;> simp
      | 1, hp, ht => simp at hp ht; subst hp ht; cases h <;> simp
      | n + 2, hp, ht => simp at hp
    intro x a b ha hb
    rcases key x a ha with ⟨rfl, rfl⟩ | ⟨rfl, rfl⟩ | ⟨rfl, rfl⟩ | ⟨rfl, rfl⟩ <;>
      rcases key _ b hb with ⟨h, rfl⟩ | ⟨h, rfl⟩ | ⟨h, rfl⟩ | ⟨h, rfl⟩ <;> first | rfl | simp at h
  · simp [FTy.IsFlat]
  · rintro x ⟨k, n, h⟩; simp at h
  · intro x v hx
    refine ⟨by rintro ⟨k, n, h⟩; simp at h, ?_⟩
    split at hx
    · rename_i he; subst he; simp at hx; subst hx
      exact ⟨2, ⟨0, _, _, rfl, rfl, .scale ..⟩, rfl⟩
    · split at hx
      · rename_i he; subst he; simp at hx; subst hx
        exact ⟨4, ⟨1, _, _, rfl, rfl, .scale ..⟩, rfl⟩
      · simp at hx

theorem callInt_nil {x : String} {a : Int32} {args : List Ty} : ¬ CallInt [] args x a := by
  rintro ⟨i, p, t, hp, _⟩; simp at hp

/-- C32 is false as stated: 4294967301 is computed but the result is `varchar<5>`. -/
theorem C32_negation_wrap : ¬ C32_statement := by
  intro h
  have := (h [] [] [("L", .num 4294967301)] (.single (.fixed .varChar) 2 (.var "L")) (fun _ => none) _ .nil
    (fun _ _ _ h => absurd h callInt_nil) (by simp)
    (.assign _ _ _ _ _ _ (.num _) (.done _))).2 (.fixed .varChar 2 0 5) (by
      simp [FTy.returnType, derivedParams, buildNameValueMap, assignAll, DExpr.evaluate, finalParams,
        FTy.absParams, IntParam.isVar, GoMap.get_set, FTy.withParameters, singleWithParameters,
        Single.make])
  cases this with
  | fixed _ _ _ _ h =>
    simp [IntParam.Stands, DEnv.assign] at h

/-- ... a variable inside a list is not replaced, the derivation fails -/
theorem C32_negation_nested : ¬ C32_statement := by
  intro h
  have := (h [] [] [("L", .num 5)] (.list 2 (.single (.fixed .varChar) 2 (.var "L"))) (fun _ => none) _ .nil
    (fun _ _ _ h => absurd h callInt_nil) (by simp)
    (.assign _ _ _ _ _ _ (.num _) (.done _))).1 (.list 2 0 (.fixed .varChar 2 0 5))
    (.list _ _ _ (.fixed _ _ _ _ (by simp [IntParam.Stands, DEnv.assign])))
  simp [FTy.returnType, derivedParams, buildNameValueMap, assignAll, DExpr.evaluate, finalParams,
    FTy.absParams, IntParam.isVar, FTy.hasParam, FTy.withParameters, GVal.asType] at this

/-- ... and computing with the precision of a time type panics -/
theorem C32_negation_time : ¬ C32_statement := by
  intro h
  have key : ∀ x a, CallInt [.single (.prec .precisionTime) 2 (.var "P")] [.prec .precisionTime 2 0 3] x a →
      a = 3 := by
    rintro x a ⟨i, p, t, hp, ht, h⟩
    match i, hp, ht with
    | 0, hp, ht => simp at hp ht; subst hp ht; cases h; rfl
    | n + 1, hp, ht => simp at hp
  have := (h [.single (.prec .precisionTime) 2 (.var "P")] [.prec .precisionTime 2 0 3]
    [("Q", .bin .plus (.name "P") (.num 1))] (.single (.fixed .varChar) 2 (.var "Q"))
    (fun x => if x = "P" then some (.num 3) else none) _
    (.cons _ _ _ _ (.prec _ _ (.var _) _ _ _ (by simp) trivial) .nil)
    (fun x a b ha hb => by rw [key x a ha, key x b hb])
    (by
      intro x v hx
      split at hx
      · rename_i he; subst he; simp at hx; subst hx
        exact ⟨3, ⟨0, _, _, rfl, rfl, .prec ..⟩, rfl⟩
      · simp at hx)
    (.assign _ _ _ _ _ _ (.plus _ _ 3 1 (.name _ _ (by simp)) (.num 1) (by decide)) (.done _))).1
    (.fixed .varChar 2 0 4) (.fixed _ _ _ _ (by simp [IntParam.Stands, DEnv.assign]))
  simp [FTy.returnType, derivedParams, buildNameValueMap, assignAll, DExpr.evaluate, FTy.absParams,
    IntParam.isVar, Ty.getParameters, bindNames, GoMap.get_set, DOp.apply, GVal.asInt] at this

/-! ## C66 Return types are the declared type with its variables replaced -/

/-- C66 in full: the return type of an accepted call is the declared one with the integer and type
variables replaced by what stands there in the call, and it is found if every variable occurs in the
call. (Declared user-defined types carry a name, so their reference is not said; derivations are C32.) -/
def C66_statement : Prop :=
  ∀ (params : List FTy) (args : List Ty) (ret : FTy), ret.NoDerivation →
    FitsAll (fun _ _ => True) SameInteger False params args →
    (∀ x a b, CallInt params args x a → CallInt params args x b → a = b) →
    (∀ out, FTy.returnType params args ret = .ok out →
      Instance (fun x a => ∃ c, CallInt params args x c ∧ a = c.toInt) (CallType params args) ret out) ∧
    ((∃ out, Instance (fun x a => ∃ c, CallInt params args x c ∧ a = c.toInt) (CallType params args) ret out) →
      ∃ out, FTy.returnType params args ret = .ok out)

/-- what is in the symbol table comes from the arguments -/
theorem bindNames_from {W : String → GVal → Prop} :
    ∀ (ps : List AbsParam) (vs : List GVal) (st st' : GoMap String GVal),
    (∀ x v, st.get x = some v → W x v) →
    (∀ (i : Nat) x v, ps[i]? = some (.int (.var x)) → vs[i]? = some v → W x v) →
    bindNames ps vs st = .ok st' → ∀ x v, st'.get x = some v → W x v
  | [], vs, st, st', hst, _, h => by
    cases vs <;> simp [bindNames] at h <;> subst h <;> exact hst
  | p :: ps, [], st, st', hst, _, h => by
    have : bindNames (p :: ps) [] st = .ok st := by
      cases p with
      | int q => cases q <;> rfl
      | _ => rfl
    rw [this] at h
    simp at h; subst h; exact hst
  | p :: ps, v :: vs, st, st', hst, hw, h => by
    have rest := fun st hst h => bindNames_from ps vs st st' hst
      (fun i x w hx hv => hw (i + 1) x w (by simpa using hx) (by simpa using hv)) h
    cases p with
    | ty => exact rest st hst h
    | udtParam => exact rest st hst h
    | int q =>
      cases q with
      | concrete => exact rest st hst h
      | var x =>
        have hx := hw 0 x v (by simp) (by simp)
        have hset : ∀ y w, (st.set x v).get y = some w → W y w := by
          intro y w hy
          rw [GoMap.get_set] at hy
          split at hy
          · rename_i he; subst he; simp at hy; subst hy; exact hx
          · exact hst y w hy
        simp only [bindNames] at h
        split at h
        · split at h
          · exact rest _ hset h
          · simp at h
        · exact rest _ hset h

theorem buildMap_from {W : String → GVal → Prop} :
    ∀ (ps : List FTy) (ts : List Ty) (st st' : GoMap String GVal),
    (∀ x v, st.get x = some v → W x v) →
    (∀ (i : Nat) p t, ps[i]? = some p → ts[i]? = some t →
      ∀ (j : Nat) x v, p.absParams[j]? = some (.int (.var x)) → t.getParameters[j]? = some v → W x v) →
    buildNameValueMap ps ts st = .ok st' → ∀ x v, st'.get x = some v → W x v
  | [], ts, st, st', hst, _, h => by simp [buildNameValueMap] at h; subst h; exact hst
  | p :: ps, [], st, st', hst, hw, h => by
    simp only [buildNameValueMap] at h
    split at h
    · exact buildMap_from ps [] st st' hst (by simp) h
    · simp at h
  | p :: ps, t :: ts, st, st', hst, hw, h => by
    have rest := fun st hst h => buildMap_from ps ts st st' hst
      (fun i p t hp ht => hw (i + 1) p t (by simpa using hp) (by simpa using ht)) h
    simp only [buildNameValueMap] at h
    split at h
    · exact rest st hst h
    · split at h
      · simp at h
      · obtain ⟨st1, h1, h2⟩ := Res.bind_eq_ok.1 h
        exact rest st1 (bindNames_from _ _ _ _ hst (hw 0 p t (by simp) (by simp)) h1) h2

/-- integer variables at the top of a declared type -/
theorem abs_intAt {N : String → UInt32 → Prop} {I : Int32 → Int64 → Prop} {S : Prop} {p : FTy} {t : Ty}
    (h : Fits N I S p t) (j : Nat) (x : String) (v : GVal) (hx : p.absParams[j]? = some (.int (.var x)))
    (hv : t.getParameters[j]? = some v) :
    ∃ c, IntAt x p t c ∧ (v = .prec c ∨ v = .int (Int64.ofInt c.toInt)) := by
  have noTy : ∀ (l : List FTy), (l.map AbsParam.ty)[j]? ≠ some (.int (.var x)) := by
    intro l hl
    have := List.mem_of_getElem? hl
    simp at this
  cases p with
  | prim => simp [FTy.absParams] at hx
  | any => simp [FTy.absParams] at hx
  | enum => simp [FTy.absParams] at hx
  | single k n q =>
    obtain ⟨c, h1, h2⟩ := (flat_value (p := .single k n q) trivial h).2 j x v hx hv
    exact ⟨c, h1, h2.imp And.right And.right⟩
  | decimal n a b =>
    obtain ⟨c, h1, h2⟩ := (flat_value (p := .decimal n a b) trivial h).2 j x v hx hv
    exact ⟨c, h1, h2.imp And.right And.right⟩
  | list n e =>
    simp only [FTy.absParams] at hx
    split at hx
    · exact absurd hx (noTy [e])
    · simp at hx
  | map n k e => exact absurd hx (noTy _)
  | struct n ts => exact absurd hx (noTy _)
  | func n ps r => exact absurd hx (noTy _)
  | udt n w y ps =>
    simp only [FTy.absParams] at hx
    split at hx
    · have := List.mem_of_getElem? hx
      simp at this
    · simp at hx
  | derivation as q =>
    cases h with
    | derivation _ _ _ h =>
      simp only [FTy.absParams] at hx
      obtain ⟨c, h1, h2⟩ := abs_intAt h j x v hx hv
      exact ⟨c, .derivation _ _ _ _ h1, h2⟩

mutual
/-- the search for a type variable in an argument that matches -/
theorem unwrap_spec {N : String → UInt32 → Prop} {I : Int32 → Int64 → Prop} {S : Prop} (x : String) :
    ∀ (p : FTy) (t : Ty), Fits N I S p t → ∃ r, unwrapAny x p t = .ok r ∧
      (∀ s, r = some s → AnyAt x p t s) ∧ (p.Plain → r = none → ∀ s, ¬ AnyAt x p t s)
  | .prim .., t, _ => ⟨none, by simp [unwrapAny], by simp, by intro _ _ s h; cases h⟩
  | .enum .., t, _ => ⟨none, by simp [unwrapAny], by simp, by intro _ _ s h; cases h⟩
  | .single .., t, _ => ⟨none, by simp [unwrapAny], by simp, by intro _ _ s h; cases h⟩
  | .decimal .., t, _ => ⟨none, by simp [unwrapAny], by simp, by intro _ _ s h; cases h⟩
  | .udt .., t, _ => ⟨none, by simp [unwrapAny], by simp, by simp [FTy.Plain]⟩
  | .derivation .., t, _ => ⟨none, by simp [unwrapAny], by simp, by simp [FTy.Plain]⟩
  | .any n y, t, _ => by
    simp only [unwrapAny]
    split
    · rename_i he; subst he
      exact ⟨_, rfl, by rintro s h; cases h; exact .here .., by simp⟩
    · rename_i he
      exact ⟨_, rfl, by simp, by intro _ _ s h; cases h; exact he rfl⟩
  | .list n e, _, .list _ _ _ _ t _ h => by
    obtain ⟨r, h1, h2, h3⟩ := unwrap_spec x e t h
    refine ⟨r, by simp [unwrapAny, Ty.getParameters, h1], fun s hs => .list _ _ _ _ _ _ (h2 s hs), ?_⟩
    intro hp hr s hs
    simp only [FTy.Plain] at hp
    cases hs with
    | list _ _ _ _ _ _ hs => exact h3 hp hr s hs
  | .map n k e, _, .map _ _ _ _ _ t u _ h h' => by
    obtain ⟨r, h1, h2, h3⟩ := unwrap_spec x k t h
    obtain ⟨r', h1', h2', h3'⟩ := unwrap_spec x e u h'
    cases r with
    | some s =>
      exact ⟨some s, by simp [unwrapAny, Ty.getParameters, h1],
        fun s hs => .mapKey _ _ _ _ _ _ _ _ (h2 s hs), by simp⟩
    | none =>
      refine ⟨r', by simp [unwrapAny, Ty.getParameters, h1, h1'],
        fun s hs => .mapValue _ _ _ _ _ _ _ _ (h2' s hs), ?_⟩
      intro hp hr s hs
      simp only [FTy.Plain] at hp
      cases hs with
      | mapKey _ _ _ _ _ _ _ _ hs => exact h3 hp.1 rfl s hs
      | mapValue _ _ _ _ _ _ _ _ hs => exact h3' hp.2 hr s hs
  | .struct n ps, _, .struct _ _ _ _ ts _ h => by
    obtain ⟨r, h1, h2, h3⟩ := unwrapList_spec x ps ts h []
    refine ⟨r, ?_, ?_, ?_⟩
    · have hl := (fitsAll_get h).1
      simp only [unwrapAny, Ty.getParameters, List.length_map, hl]
      simp at h1
      simp [h1]
    · intro s hs
      obtain ⟨i, p, t, hp, ht, hx⟩ := h2 s hs
      exact .struct _ _ _ _ _ _ i p t hp ht hx
    · intro hp hr s hs
      simp only [FTy.Plain] at hp
      cases hs with
      | struct _ _ _ _ _ _ i p t hip hit hx => exact h3 hp hr i p t hip hit s hx
  | .func n ps q, _, .func _ _ _ _ ts u _ h h' => by
    obtain ⟨r, h1, h2, h3⟩ := unwrapList_spec x ps ts h [.ty u]
    obtain ⟨r', h1', h2', h3'⟩ := unwrap_spec x q u h'
    have hl := (fitsAll_get h).1
    have e : List.map GVal.ty (ts ++ [u]) = ts.map GVal.ty ++ [.ty u] := by simp
    cases r with
    | some s =>
      refine ⟨some s, ?_, ?_, by simp⟩
      · simp only [unwrapAny, Ty.getParameters, e, h1]
        simp [hl]
      · intro s hs
        obtain ⟨i, p, t, hp, ht, hx⟩ := h2 s hs
        exact .funcParam _ _ _ _ _ _ _ i p t hp ht hx
    | none =>
      refine ⟨r', ?_, fun s hs => .funcReturn _ _ _ _ _ _ _ (h2' s hs), by simp [FTy.Plain]⟩
      simp only [unwrapAny, Ty.getParameters, e, h1, hl]
      have : (ts.map GVal.ty ++ [GVal.ty u]).drop ts.length = [.ty u] := by
        rw [List.drop_append_of_le_length (by simp)]; simp
      rw [this]
      simp [h1']
/-- ... in each of several -/
theorem unwrapList_spec {N : String → UInt32 → Prop} {I : Int32 → Int64 → Prop} {S : Prop} (x : String) :
    ∀ (ps : List FTy) (ts : List Ty), FitsAll N I S ps ts → ∀ (more : List GVal),
      ∃ r, unwrapAnyList x ps (ts.map GVal.ty ++ more) = .ok r ∧
      (∀ s, r = some s → ∃ (i : Nat) (p : FTy) (t : Ty), ps[i]? = some p ∧ ts[i]? = some t ∧ AnyAt x p t s) ∧
      (FTy.PlainList ps → r = none → ∀ (i : Nat) (p : FTy) (t : Ty), ps[i]? = some p → ts[i]? = some t →
        ∀ s, ¬ AnyAt x p t s)
  | [], _, .nil, more => ⟨none, by cases more <;> simp [unwrapAnyList], by simp, by simp⟩
  | p :: ps, _, .cons _ t _ ts h hs, more => by
    obtain ⟨r, h1, h2, h3⟩ := unwrap_spec x p t h
    obtain ⟨r', h1', h2', h3'⟩ := unwrapList_spec x ps ts hs more
    cases r with
    | some s =>
      refine ⟨some s, by simp [unwrapAnyList, h1], ?_, by simp⟩
      intro s' hs'
      exact ⟨0, p, t, rfl, rfl, h2 s' hs'⟩
    | none =>
      refine ⟨r', by simp [unwrapAnyList, h1, h1'], ?_, ?_⟩
      · intro s' hs'
        obtain ⟨i, q, u, hq, hu, hx⟩ := h2' s' hs'
        exact ⟨i + 1, q, u, by simpa using hq, by simpa using hu, hx⟩
      · intro hp hr i q u hq hu s
        simp only [FTy.PlainList] at hp
        cases i with
        | zero => simp at hq hu; subst hq hu; exact h3 hp.1 rfl s
        | succ i => exact h3' hp.2 hr i q u (by simpa using hq) (by simpa using hu) s
end

/-- `AnyType.ReturnType` finds a type of the call, and one if there is one -/
theorem anyReturn_spec {N : String → UInt32 → Prop} {I : Int32 → Int64 → Prop} {S : Prop} (n : Nullability)
    (x : String) : ∀ (ps : List FTy) (ts : List Ty), FitsAll N I S ps ts →
      (∀ out, anyReturnType n x ps ts = .ok out → ∃ s, CallType ps ts x s ∧
        out = if n = NullabilityNullable then s.withNullability NullabilityNullable else s) ∧
      (FTy.PlainList ps → (∃ s, CallType ps ts x s) → ∃ out, anyReturnType n x ps ts = .ok out)
  | [], _, .nil => by
    refine ⟨by simp [anyReturnType], ?_⟩
    rintro _ ⟨s, i, p, t, hp, _⟩
    simp at hp
  | p :: ps, _, .cons _ t _ ts h hs => by
    obtain ⟨r, h1, h2, h3⟩ := unwrap_spec x p t h
    obtain ⟨h4, h5⟩ := anyReturn_spec n x ps ts hs
    cases r with
    | some s =>
      simp only [anyReturnType, h1, Res.ok_bind]
      exact ⟨by rintro out ⟨⟩; exact ⟨s, ⟨0, p, t, rfl, rfl, h2 s rfl⟩, rfl⟩, fun _ _ => ⟨_, rfl⟩⟩
    | none =>
      simp only [anyReturnType, h1, Res.ok_bind]
      refine ⟨?_, ?_⟩
      · intro out ho
        obtain ⟨s, ⟨i, q, u, hq, hu, hx⟩, he⟩ := h4 out ho
        exact ⟨s, ⟨i + 1, q, u, by simpa using hq, by simpa using hu, hx⟩, he⟩
      · rintro hp ⟨s, i, q, u, hq, hu, hx⟩
        simp only [FTy.PlainList] at hp
        cases i with
        | zero => simp at hq hu; subst hq hu; exact absurd hx (h3 hp.1 rfl s)
        | succ i => exact h5 hp.2 ⟨s, i, q, u, by simpa using hq, by simpa using hu, hx⟩

theorem single_out {k : Single} {n : Nullability} {q : IntParam} {v : GVal} {c : Int32} {out : Ty}
    (hv : v = .prec c ∨ v = .int (Int64.ofInt c.toInt)) (h : singleWithParameters k n q [v] = .ok out) :
    out = k.make c n := by
  rcases hv with rfl | rfl
  · simpa [singleWithParameters] using h.symm
  · simp only [singleWithParameters, Res.ok.injEq] at h
    rw [← h, ofInt_toInt32 _ c (toInt32_ofInt c)]

/-- the symbol table holds values from the call only -/
theorem symbols_from {N : String → UInt32 → Prop} {I : Int32 → Int64 → Prop} {S : Prop}
    {params : List FTy} {args : List Ty} (hfit : FitsAll N I S params args) {st : GoMap String GVal}
    (h : buildNameValueMap params args .empty = .ok st) (x : String) (v : GVal) (hv : st.get x = some v) :
    ∃ c, CallInt params args x c ∧ (v = .prec c ∨ v = .int (Int64.ofInt c.toInt)) := by
  refine buildMap_from (W := fun x v => ∃ c, CallInt params args x c ∧
    (v = .prec c ∨ v = .int (Int64.ofInt c.toInt))) params args .empty st (by simp [GoMap.get_empty]) ?_ h x v hv
  intro i p t hp ht j x v hx hv
  obtain ⟨c, hc, h'⟩ := abs_intAt ((fitsAll_get hfit).2 i p t hp ht) j x v hx hv
  exact ⟨c, ⟨i, p, t, hp, ht, hc⟩, h'⟩

/-- what the code takes for an integer parameter -/
def IntParam.Value (st : GoMap String GVal) : IntParam → GVal → Prop
  | .var x, v => st.get x = some v
  | .concrete c, v => v = .int (Int64.ofInt c.toInt)

/-- two integer parameters of a final type -/
theorem final_two {st : GoMap String GVal} {p s : IntParam} {vs : List GVal}
    (h : finalParams st [.int p, .int s] = .ok vs) : ∃ a b, vs = [a, b] ∧
      p.Value st a ∧ s.Value st b := by
  have one : ∀ {s : IntParam} {vs}, finalParams st [.int s] = .ok vs → ∃ b, vs = [b] ∧
      s.Value st b := by
    intro s vs h
    cases s with
    | concrete c => simp [finalParams] at h; exact ⟨_, h.symm, rfl⟩
    | var x =>
      simp only [finalParams] at h
      cases hg : st.get x with
      | none => simp [hg] at h
      | some v => simp [hg] at h; exact ⟨_, h.symm, hg⟩
  cases p with
  | concrete c =>
    rw [finalParams] at h
    obtain ⟨ws, h1, h2⟩ := Res.bind_eq_ok.1 h
    obtain ⟨b, rfl, hb⟩ := one h1
    simp at h2
    exact ⟨_, b, h2.symm, rfl, hb⟩
  | var x =>
    rw [finalParams] at h
    cases hg : st.get x with
    | none => simp [hg] at h
    | some v =>
      simp only [hg] at h
      obtain ⟨ws, h1, h2⟩ := Res.bind_eq_ok.1 h
      obtain ⟨b, rfl, hb⟩ := one h1
      simp at h2
      exact ⟨_, b, h2.symm, hg, hb⟩

mutual
/-- C66, first half, in full. -/
theorem C66_sound {N : String → UInt32 → Prop} {I : Int32 → Int64 → Prop} {S : Prop}
    {params : List FTy} {args : List Ty} (hfit : FitsAll N I S params args) :
    ∀ (ret : FTy) (out : Ty), ret.NoDerivation →
      FTy.returnType params args ret = .ok out →
      Instance (fun x a => ∃ c, CallInt params args x c ∧ a = c.toInt) (CallType params args) ret out
  | .prim .., out, _, h => by simp [FTy.returnType] at h; subst h; exact .prim ..
  | .enum .., out, _, h => by simp [FTy.returnType] at h; subst h; exact .enum ..
  | .any n x, out, _, h => by
    simp only [FTy.returnType] at h
    obtain ⟨s, hs, rfl⟩ := (anyReturn_spec n x params args hfit).1 out h
    split
    · rename_i he; subst he; exact .anyNullable _ _ hs
    · rename_i he; exact .any _ _ _ hs he
  | .single k n q, out, _, h => by
    have key : ∀ c, q.Stands (fun x a => ∃ c, CallInt params args x c ∧ a = c.toInt) c →
        Instance (fun x a => ∃ c, CallInt params args x c ∧ a = c.toInt) (CallType params args)
          (.single k n q) (k.make c n) := by
      intro c hc
      cases k with
      | fixed k => exact .fixed _ _ _ _ hc
      | prec k => exact .prec _ _ _ _ hc
    cases q with
    | concrete c => simp [FTy.returnType] at h; subst h; exact key c rfl
    | var x =>
      simp only [FTy.returnType] at h
      obtain ⟨vs, h1, h2⟩ := Res.bind_eq_ok.1 h
      simp only [derivedParams, assignAll, Res.ok_bind] at h1
      obtain ⟨st, h3, h4⟩ := Res.bind_eq_ok.1 h1
      simp only [FTy.absParams, IntParam.isVar, if_true, finalParams] at h4
      cases hg : st.get x with
      | none => simp [hg] at h4
      | some v =>
        simp [hg] at h4
        subst h4
        obtain ⟨c, hc, hv⟩ := symbols_from hfit h3 x v hg
        rw [single_out hv h2]
        exact key c ⟨c, hc, rfl⟩
  | .decimal n p s, out, _, h => by
    have val : ∀ {st}, buildNameValueMap params args .empty = .ok st → ∀ {q : IntParam} {i : Int64},
        q.Value st (.int i) →
        q.Stands (fun x a => ∃ c, CallInt params args x c ∧ a = c.toInt) i.toInt32 := by
      intro st hst q i hq
      cases q with
      | concrete c =>
        simp only [IntParam.Value, GVal.int.injEq] at hq; subst hq
        exact ofInt_toInt32 _ c (toInt32_ofInt c)
      | var x =>
        obtain ⟨c, hc, hv⟩ := symbols_from hfit hst x _ hq
        simp at hv
        subst hv
        exact ⟨c, hc, by simp⟩
    have gen : (derivedParams [] (FTy.absParams (.decimal n p s)) params args >>= fun vs =>
          decimalWithParameters n p s vs) = .ok out → (p.isVar || s.isVar) = true →
        Instance (fun x a => ∃ c, CallInt params args x c ∧ a = c.toInt) (CallType params args)
          (.decimal n p s) out := by
      intro h hv
      obtain ⟨vs, h1, h2⟩ := Res.bind_eq_ok.1 h
      simp only [derivedParams, assignAll, Res.ok_bind] at h1
      obtain ⟨st, h3, h4⟩ := Res.bind_eq_ok.1 h1
      simp only [FTy.absParams, hv, if_true] at h4
      obtain ⟨a, b, rfl, ha, hb⟩ := final_two h4
      cases a <;> cases b <;> simp [decimalWithParameters] at h2
      subst h2
      exact .decimal _ _ _ _ _ (val h3 ha) (val h3 hb)
    cases p with
    | concrete a =>
      cases s with
      | concrete b => simp [FTy.returnType] at h; subst h; exact .decimal _ _ _ _ _ rfl rfl
      | var y => simp only [FTy.returnType] at h; exact gen h rfl
    | var x =>
      cases s with
      | concrete b => simp only [FTy.returnType] at h; exact gen h rfl
      | var y => simp only [FTy.returnType] at h; exact gen h rfl
  | .list n e, out, hd, h => by
    simp only [FTy.returnType] at h
    obtain ⟨t, h1, h2⟩ := Res.bind_eq_ok.1 h
    simp at h2; subst h2
    simp only [FTy.NoDerivation] at hd
    exact .list _ _ _ (C66_sound hfit e t hd h1)
  | .map n k e, out, hd, h => by
    simp only [FTy.returnType] at h
    obtain ⟨t, h1, h⟩ := Res.bind_eq_ok.1 h
    obtain ⟨u, h2, h3⟩ := Res.bind_eq_ok.1 h
    simp at h3; subst h3
    simp only [FTy.NoDerivation] at hd
    exact .map _ _ _ _ _ (C66_sound hfit k t hd.1 h1) (C66_sound hfit e u hd.2 h2)
  | .struct n ts, out, hd, h => by
    simp only [FTy.returnType] at h
    obtain ⟨us, h1, h2⟩ := Res.bind_eq_ok.1 h
    simp at h2; subst h2
    simp only [FTy.NoDerivation] at hd
    exact .struct _ _ _ (returns_sound hfit ts us hd h1)
  | .func n ps r, out, hd, h => by
    simp only [FTy.returnType] at h
    obtain ⟨us, h1, h⟩ := Res.bind_eq_ok.1 h
    obtain ⟨u, h2, h3⟩ := Res.bind_eq_ok.1 h
    simp at h3; subst h3
    simp only [FTy.NoDerivation] at hd
    exact .func _ _ _ _ _ (returns_sound hfit ps us hd.1 h1) (C66_sound hfit r u hd.2 h2)
  | .udt n v name ps, out, hd, h => by
    simp only [FTy.returnType] at h
    obtain ⟨ts, h1, h2⟩ := Res.bind_eq_ok.1 h
    simp at h2; subst h2
    simp only [FTy.NoDerivation] at hd
    exact .udt _ _ _ _ _ _ _ (returnParams_sound hfit ps ts hd h1)
  | .derivation .., _, hd, _ => by simp [FTy.NoDerivation] at hd
/-- ... for several types -/
theorem returns_sound {N : String → UInt32 → Prop} {I : Int32 → Int64 → Prop} {S : Prop}
    {params : List FTy} {args : List Ty} (hfit : FitsAll N I S params args) :
    ∀ (rets : List FTy) (outs : List Ty), FTy.NoDerivationList rets →
      FTy.returnTypes params args rets = .ok outs →
      Instances (fun x a => ∃ c, CallInt params args x c ∧ a = c.toInt) (CallType params args) rets outs
  | [], outs, _, h => by simp [FTy.returnTypes] at h; subst h; exact .nil
  | r :: rs, outs, hd, h => by
    simp only [FTy.returnTypes] at h
    obtain ⟨t, h1, h⟩ := Res.bind_eq_ok.1 h
    obtain ⟨ts, h2, h3⟩ := Res.bind_eq_ok.1 h
    simp at h3; subst h3
    simp only [FTy.NoDerivationList] at hd
    exact .cons _ _ _ _ (C66_sound hfit r t hd.1 h1) (returns_sound hfit rs ts hd.2 h2)
/-- ... for the parameters of a user-defined type -/
theorem returnParams_sound {N : String → UInt32 → Prop} {I : Int32 → Int64 → Prop} {S : Prop}
    {params : List FTy} {args : List Ty} (hfit : FitsAll N I S params args) :
    ∀ (ps : List FParam) (ts : List TParam), FTy.NoDerivationParams ps →
      FParam.toTypeParams params args ps = .ok ts →
      InstanceParams (fun x a => ∃ c, CallInt params args x c ∧ a = c.toInt) (CallType params args) ps ts
  | [], ts, _, h => by simp [FParam.toTypeParams] at h; subst h; exact .nil
  | .dataType r :: rs, ts, hd, h => by
    simp only [FParam.toTypeParams] at h
    obtain ⟨t, h1, h⟩ := Res.bind_eq_ok.1 h
    obtain ⟨ts, h2, h3⟩ := Res.bind_eq_ok.1 h
    simp at h3; subst h3
    simp only [FTy.NoDerivationParams] at hd
    exact .dataType _ _ _ _ (C66_sound hfit r t hd.1 h1) (returnParams_sound hfit rs ts hd.2 h2)
  | .integer i :: rs, ts, hd, h => by
    simp only [FParam.toTypeParams] at h
    obtain ⟨ts, h2, h3⟩ := Res.bind_eq_ok.1 h
    simp at h3; subst h3
    simp only [FTy.NoDerivationParams] at hd
    exact .integer _ _ _ _ (by simp) (returnParams_sound hfit rs ts hd h2)
  | .string s :: rs, ts, hd, h => by
    simp only [FParam.toTypeParams] at h
    obtain ⟨ts, h2, h3⟩ := Res.bind_eq_ok.1 h
    simp at h3; subst h3
    simp only [FTy.NoDerivationParams] at hd
    exact .string _ _ _ (returnParams_sound hfit rs ts hd h2)
end

mutual
/-- C66, second half: for parameters with their integer variables at the top and without function or
user-defined types (the result may have them). Missing: nested integer variables (`C66_negation`), variables that are a time
precision here and a length there (`C66_negation_kind`). -/
theorem C66_total_partial {N : String → UInt32 → Prop} {I : Int32 → Int64 → Prop} {S : Prop}
    {params : List FTy} {args : List Ty} (hfit : FitsAll N I S params args)
    (hsame : ∀ x a b, CallInt params args x a → CallInt params args x b → a = b)
    (hflat : ∀ p ∈ params, p.IsFlat ∨ p.NoInts) (hplain : FTy.PlainList params)
    (hkind : ∀ x, IsTimePrecision params x → ¬ IsLength params x) :
    ∀ (ret : FTy) (out : Ty), (∀ x ∈ ret.decimalNames, ¬ IsTimePrecision params x) →
      Instance (fun x a => ∃ c, CallInt params args x c ∧ a = c.toInt) (CallType params args) ret out →
      ∃ out', FTy.returnType params args ret = .ok out'
  | .prim .., out, _, h => ⟨_, by rw [FTy.returnType]⟩
  | .enum .., out, _, h => ⟨_, by rw [FTy.returnType]⟩
  | .any n x, out, _, h => by
    rw [FTy.returnType]
    refine (anyReturn_spec n x params args hfit).2 hplain ?_
    cases h with
    | any _ _ t h _ => exact ⟨_, h⟩
    | anyNullable _ t h => exact ⟨_, h⟩
  | .single k n q, out, _, h => by
    obtain ⟨st, h1, h2, h3⟩ := symbols hfit hsame hflat hkind
    cases q with
    | concrete c => exact ⟨_, by rw [FTy.returnType]⟩
    | var x =>
      have : ∃ c, CallInt params args x c := by
        cases h with
        | fixed _ _ _ c h => obtain ⟨c, hc, _⟩ := h; exact ⟨c, hc⟩
        | prec _ _ _ c h => obtain ⟨c, hc, _⟩ := h; exact ⟨c, hc⟩
      obtain ⟨c, hc⟩ := this
      obtain ⟨v, hv⟩ := h2 x c hc
      obtain ⟨d, _, h⟩ := h3 x v hv
      rw [FTy.returnType]
      simp only [derivedParams, assignAll, h1, Res.ok_bind, FTy.absParams, IntParam.isVar, if_true,
        finalParams, hv]
      rcases h with ⟨_, rfl⟩ | ⟨_, rfl⟩
      · exact ⟨_, rfl⟩
      · exact ⟨_, rfl⟩
  | .decimal n p s, out, hnt, h => by
    obtain ⟨st, h1, h2, h3⟩ := symbols hfit hsame hflat hkind
    have val : ∀ x, (∃ c, CallInt params args x c) → ¬ IsTimePrecision params x →
        ∃ i, st.get x = some (.int i) := by
      rintro x ⟨c, hc⟩ ht
      obtain ⟨v, hv⟩ := h2 x c hc
      obtain ⟨d, _, h | h⟩ := h3 x v hv
      · exact absurd h.1 ht
      · exact ⟨_, by rw [hv, h.2]⟩
    cases h with
    | decimal _ _ _ a b ha hb =>
    cases p with
    | concrete a =>
      cases s with
      | concrete b => exact ⟨_, by rw [FTy.returnType]⟩
      | var y =>
        obtain ⟨c, hc, _⟩ := hb
        obtain ⟨j, hj⟩ := val y ⟨c, hc⟩ (hnt y (by simp [FTy.decimalNames, IntParam.str]))
        exact ⟨_, by
          simp [FTy.returnType, derivedParams, assignAll, h1, FTy.absParams, IntParam.isVar, finalParams,
            hj, decimalWithParameters]; rfl⟩
    | var x =>
      obtain ⟨c, hc, _⟩ := ha
      obtain ⟨i, hi⟩ := val x ⟨c, hc⟩ (hnt x (by simp [FTy.decimalNames, IntParam.str]))
      cases s with
      | concrete b =>
        exact ⟨_, by
          simp [FTy.returnType, derivedParams, assignAll, h1, FTy.absParams, IntParam.isVar, finalParams,
            hi, decimalWithParameters]; rfl⟩
      | var y =>
        obtain ⟨c, hc, _⟩ := hb
        obtain ⟨j, hj⟩ := val y ⟨c, hc⟩ (hnt y (by simp [FTy.decimalNames, IntParam.str]))
        exact ⟨_, by
          simp [FTy.returnType, derivedParams, assignAll, h1, FTy.absParams, IntParam.isVar, finalParams,
            hi, hj, decimalWithParameters]; rfl⟩
  | .list n e, _, hnt, .list _ _ t h => by
    simp only [FTy.decimalNames] at hnt
    obtain ⟨t', h1⟩ := C66_total_partial hfit hsame hflat hplain hkind e t hnt h
    exact ⟨_, by rw [FTy.returnType, h1]; rfl⟩
  | .map n k e, _, hnt, .map _ _ _ t u h h' => by
    simp only [FTy.decimalNames, List.mem_append] at hnt
    obtain ⟨t', h1⟩ := C66_total_partial hfit hsame hflat hplain hkind k t (fun x hx => hnt x (.inl hx)) h
    obtain ⟨u', h2⟩ := C66_total_partial hfit hsame hflat hplain hkind e u (fun x hx => hnt x (.inr hx)) h'
    exact ⟨_, by rw [FTy.returnType, h1, h2]; rfl⟩
  | .struct n ts, _, hnt, .struct _ _ us h => by
    simp only [FTy.decimalNames] at hnt
    obtain ⟨t', h1⟩ := returns_total hfit hsame hflat hplain hkind ts us hnt h
    exact ⟨_, by rw [FTy.returnType, h1]; rfl⟩
  | .func n ps r, _, hnt, .func _ _ _ us u h h' => by
    simp only [FTy.decimalNames, List.mem_append] at hnt
    obtain ⟨t', h1⟩ := returns_total hfit hsame hflat hplain hkind ps us (fun x hx => hnt x (.inl hx)) h
    obtain ⟨u', h2⟩ := C66_total_partial hfit hsame hflat hplain hkind r u (fun x hx => hnt x (.inr hx)) h'
    exact ⟨_, by rw [FTy.returnType, h1, h2]; rfl⟩
  | .udt n v name ps, _, hnt, .udt _ _ _ _ _ _ us h => by
    simp only [FTy.decimalNames] at hnt
    obtain ⟨t', h1⟩ := returnParams_total hfit hsame hflat hplain hkind ps us hnt h
    exact ⟨_, by rw [FTy.returnType, h1]; rfl⟩
  | .derivation .., _, _, h => by cases h
/-- ... for several types -/
theorem returns_total {N : String → UInt32 → Prop} {I : Int32 → Int64 → Prop} {S : Prop}
    {params : List FTy} {args : List Ty} (hfit : FitsAll N I S params args)
    (hsame : ∀ x a b, CallInt params args x a → CallInt params args x b → a = b)
    (hflat : ∀ p ∈ params, p.IsFlat ∨ p.NoInts) (hplain : FTy.PlainList params)
    (hkind : ∀ x, IsTimePrecision params x → ¬ IsLength params x) :
    ∀ (rets : List FTy) (outs : List Ty), (∀ x ∈ FTy.decimalNamesList rets, ¬ IsTimePrecision params x) →
      Instances (fun x a => ∃ c, CallInt params args x c ∧ a = c.toInt) (CallType params args) rets outs →
      ∃ outs', FTy.returnTypes params args rets = .ok outs'
  | [], _, _, _ => ⟨_, by rw [FTy.returnTypes]⟩
  | r :: rs, _, hnt, .cons _ t _ ts h hs => by
    simp only [FTy.decimalNamesList, List.mem_append] at hnt
    obtain ⟨t', h1⟩ := C66_total_partial hfit hsame hflat hplain hkind r t (fun x hx => hnt x (.inl hx)) h
    obtain ⟨u', h2⟩ := returns_total hfit hsame hflat hplain hkind rs ts (fun x hx => hnt x (.inr hx)) hs
    exact ⟨_, by rw [FTy.returnTypes, h1, h2]; rfl⟩
/-- ... for the parameters of a user-defined type -/
theorem returnParams_total {N : String → UInt32 → Prop} {I : Int32 → Int64 → Prop} {S : Prop}
    {params : List FTy} {args : List Ty} (hfit : FitsAll N I S params args)
    (hsame : ∀ x a b, CallInt params args x a → CallInt params args x b → a = b)
    (hflat : ∀ p ∈ params, p.IsFlat ∨ p.NoInts) (hplain : FTy.PlainList params)
    (hkind : ∀ x, IsTimePrecision params x → ¬ IsLength params x) :
    ∀ (ps : List FParam) (ts : List TParam), (∀ x ∈ FTy.decimalNamesParams ps, ¬ IsTimePrecision params x) →
      InstanceParams (fun x a => ∃ c, CallInt params args x c ∧ a = c.toInt) (CallType params args) ps ts →
      ∃ ts', FParam.toTypeParams params args ps = .ok ts'
  | [], _, _, _ => ⟨_, by rw [FParam.toTypeParams]⟩
  | .dataType r :: rs, _, hnt, .dataType _ t _ ts h hs => by
    simp only [FTy.decimalNamesParams, List.mem_append] at hnt
    obtain ⟨t', h1⟩ := C66_total_partial hfit hsame hflat hplain hkind r t (fun x hx => hnt x (.inl hx)) h
    obtain ⟨u', h2⟩ := returnParams_total hfit hsame hflat hplain hkind rs ts (fun x hx => hnt x (.inr hx)) hs
    exact ⟨_, by rw [FParam.toTypeParams, h1, h2]; rfl⟩
  | .integer i :: rs, _, hnt, .integer _ _ _ ts _ hs => by
    simp only [FTy.decimalNamesParams] at hnt
    obtain ⟨u', h2⟩ := returnParams_total hfit hsame hflat hplain hkind rs ts hnt hs
    exact ⟨_, by rw [FParam.toTypeParams, h2]; rfl⟩
  | .string s :: rs, _, hnt, .string _ _ ts hs => by
    simp only [FTy.decimalNamesParams] at hnt
    obtain ⟨u', h2⟩ := returnParams_total hfit hsame hflat hplain hkind rs ts hnt hs
    exact ⟨_, by rw [FParam.toTypeParams, h2]; rfl⟩
end

/-- `(list<any1>, decimal<P,S>) -> struct<any1?, decimal<38,S>>` -/
example : FTy.returnType [.list 2 (.any 2 "any1"), .decimal 2 (.var "P") (.var "S")]
    [.list 2 0 (.prim .i8 2 0), .decimal 2 0 4 8]
    (.struct 2 [.any 1 "any1", .decimal 2 (.concrete 38) (.var "S")]) =
      .ok (.struct 2 0 [.prim .i8 1 0, .decimal 2 0 4 38]) ∧
    FitsAll (fun _ _ => True) SameInteger False [.list 2 (.any 2 "any1"), .decimal 2 (.var "P") (.var "S")]
      [.list 2 0 (.prim .i8 2 0), .decimal 2 0 4 8] ∧
    FTy.PlainList [.list 2 (.any 2 "any1"), .decimal 2 (.var "P") (.var "S")] ∧
    (∀ p ∈ [FTy.list 2 (.any 2 "any1"), .decimal 2 (.var "P") (.var "S")], p.IsFlat ∨ p.NoInts) := by
  refine ⟨?_, .cons _ _ _ _ (.list _ _ _ _ _ (by simp) (.any _ _ _ (by simp)))
    (.cons _ _ _ _ (.decimal _ (.var _) (.var _) _ _ _ _ (by simp) trivial trivial) .nil), ?_, ?_⟩
  · simp [FTy.returnType, FTy.returnTypes, anyReturnType, unwrapAny, Ty.getParameters,
      Ty.withNullability, derivedParams, buildNameValueMap, FTy.absParams, FTy.hasParam, IntParam.isVar,
      bindNames, GoMap.get_set, assignAll, finalParams, decimalWithParameters, NullabilityNullable,
      GoMap.get_empty]
  · simp [FTy.PlainList, FTy.Plain]
  · simp [FTy.IsFlat, FTy.NoInts]

/-- `(decimal<P,S>) -> u!box<decimal<38,S>, 5, red>` -/
example : FTy.returnType [.decimal 2 (.var "P") (.var "S")] [.decimal 2 0 4 8]
    (.udt 2 0 "box" [.dataType (.decimal 2 (.concrete 38) (.var "S")), .integer 5, .string "red"]) =
      .ok (.udt 2 0 0 [.dataType (.decimal 2 0 4 38), .integer 5, .string "red"]) ∧
    FTy.NoDerivation
      (.udt 2 0 "box" [.dataType (.decimal 2 (.concrete 38) (.var "S")), .integer 5, .string "red"]) := by
  refine ⟨?_, ?_⟩
  · simp [FTy.returnType, FParam.toTypeParams, derivedParams, buildNameValueMap, FTy.absParams, IntParam.isVar,
      Ty.getParameters, bindNames, GoMap.get_set, assignAll, finalParams, decimalWithParameters, GoMap.get_empty]
  · simp [FTy.NoDerivation, FTy.NoDerivationParams]

/-- C66 is false as stated: the length in a list of varchars cannot be used for the result. -/
theorem C66_negation : ¬ C66_statement := by
  intro h
  have key : ∀ x a, CallInt [.list 2 (.single (.fixed .varChar) 2 (.var "L"))]
      [.list 2 0 (.fixed .varChar 2 0 3)] x a → a = 3 := by
    rintro x a ⟨i, p, t, hp, ht, h⟩
    match i, hp, ht with
    | 0, hp, ht =>
      simp at hp ht; subst hp ht
      cases h with
      | list _ _ _ _ _ _ h => cases h; rfl
    | n + 1, hp, ht => simp at hp
  obtain ⟨out, h⟩ := (h [.list 2 (.single (.fixed .varChar) 2 (.var "L"))] [.list 2 0 (.fixed .varChar 2 0 3)]
    (.single (.fixed .varChar) 2 (.var "L")) trivial
    (.cons _ _ _ _ (.list _ _ _ _ _ (by simp) (.fixed _ _ (.var _) _ _ _ (by simp) trivial)) .nil)
    (fun x a b ha hb => by rw [key x a ha, key x b hb])).2
    ⟨.fixed .varChar 2 0 3, .fixed _ _ _ _
      ⟨3, ⟨0, _, _, rfl, rfl, .list _ _ _ _ _ _ (.fixed ..)⟩, rfl⟩⟩
  simp [FTy.returnType, derivedParams, buildNameValueMap, FTy.absParams, FTy.hasParam, IntParam.isVar,
    Ty.getParameters, bindNames, assignAll, finalParams, GoMap.get_empty] at h

/-- ... nor can a variable that is a time precision here and a length there, even if both are the same
number. -/
theorem C66_negation_kind : ¬ C66_statement := by
  intro h
  have key : ∀ x a, CallInt
      [.single (.prec .precisionTime) 2 (.var "P"), .single (.fixed .varChar) 2 (.var "P")]
      [.prec .precisionTime 2 0 3, .fixed .varChar 2 0 3] x a → a = 3 := by
    rintro x a ⟨i, p, t, hp, ht, h⟩
    match i, hp, ht with
    | 0, hp, ht => simp at hp ht; subst hp ht; cases h; rfl
    | 1, hp, ht => simp at hp ht; subst hp ht; cases h; rfl
    | n + 2, hp, ht => simp at hp
  obtain ⟨out, h⟩ := (h
    [.single (.prec .precisionTime) 2 (.var "P"), .single (.fixed .varChar) 2 (.var "P")]
    [.prec .precisionTime 2 0 3, .fixed .varChar 2 0 3]
    (.single (.fixed .varChar) 2 (.var "P")) trivial
    (.cons _ _ _ _ (.prec _ _ (.var _) _ _ _ (by simp) trivial)
      (.cons _ _ _ _ (.fixed _ _ (.var _) _ _ _ (by simp) trivial) .nil))
    (fun x a b ha hb => by rw [key x a ha, key x b hb])).2
    ⟨.fixed .varChar 2 0 3, .fixed _ _ _ _ ⟨3, ⟨1, _, _, rfl, rfl, .fixed ..⟩, rfl⟩⟩
  simp [FTy.returnType, derivedParams, buildNameValueMap, FTy.absParams, IntParam.isVar,
    Ty.getParameters, bindNames, GoMap.get_set, GVal.same] at h

end Verif
