import Verif.Spec.NoPanic
import Verif.Lemmas.Types
import Verif.Lemmas.Literals
import Verif.Lemmas.Expr
import Verif.Lemmas.Aggregate
/-!
# Lemmas for reading without a panic
-/

namespace Verif

/-! ## Types -/

mutual
theorem typeFromProto_complete : ∀ (m : PTy), m.Complete →
    ∃ t, typeFromProto m = .ok t ∧ t.PlanType
  | .unset, h => absurd h (by simp [PTy.Complete])
  | .prim k n v, _ => ⟨_, rfl, by simp [Ty.PlanType]⟩
  | .intervalDay n v none, _ => ⟨_, rfl, by simp [Ty.PlanType]⟩
  | .intervalDay n v (some p), h => by
      simp only [PTy.Complete] at h
      exact ⟨_, by rw [typeFromProto, precisionOrPanic_valid h]; rfl, by simp [Ty.PlanType]⟩
  | .intervalCompound n v p, h => by
      simp only [PTy.Complete] at h
      exact ⟨_, by rw [typeFromProto, precisionOrPanic_valid h]; rfl, by simp [Ty.PlanType]⟩
  | .fixedBinary n v l, _ => ⟨_, rfl, by simp [Ty.PlanType]⟩
  | .fixedChar n v l, _ => ⟨_, rfl, by simp [Ty.PlanType]⟩
  | .varchar n v l, _ => ⟨_, rfl, by simp [Ty.PlanType]⟩
  | .decimal n v s p, _ => ⟨_, rfl, by simp [Ty.PlanType]⟩
  | .precisionTime n v p, h => by
      simp only [PTy.Complete] at h
      exact ⟨_, by rw [typeFromProto, precisionOrPanic_valid h]; rfl, by simp [Ty.PlanType]⟩
  | .precisionTimestamp n v p, h => by
      simp only [PTy.Complete] at h
      exact ⟨_, by rw [typeFromProto, precisionOrPanic_valid h]; rfl, by simp [Ty.PlanType]⟩
  | .precisionTimestampTz n v p, h => by
      simp only [PTy.Complete] at h
      exact ⟨_, by rw [typeFromProto, precisionOrPanic_valid h]; rfl, by simp [Ty.PlanType]⟩
  | .struct n v ts, h => by
      simp only [PTy.Complete] at h
      obtain ⟨us, hu, hp⟩ := typesFromProto_complete ts h
      exact ⟨_, by rw [typeFromProto, hu]; rfl, by simpa [Ty.PlanType] using hp⟩
  | .func n ps r, h => by
      simp only [PTy.Complete] at h
      obtain ⟨us, hu, hp⟩ := typesFromProto_complete ps h.1
      obtain ⟨u, hr, hq⟩ := typeFromProto_complete r h.2
      exact ⟨_, by rw [typeFromProto, hu, Res.ok_bind, hr]; rfl, by simp [Ty.PlanType, hp, hq]⟩
  | .list n v t, h => by
      simp only [PTy.Complete] at h
      obtain ⟨u, hr, hq⟩ := typeFromProto_complete t h
      exact ⟨_, by rw [typeFromProto, hr]; rfl, by simp [Ty.PlanType, hq]⟩
  | .map n v k e, h => by
      simp only [PTy.Complete] at h
      obtain ⟨a, ha, hp⟩ := typeFromProto_complete k h.1
      obtain ⟨u, hr, hq⟩ := typeFromProto_complete e h.2
      exact ⟨_, by rw [typeFromProto, ha, Res.ok_bind, hr]; rfl, by simp [Ty.PlanType, hp, hq]⟩
  | .udt n v ref ps, h => by
      simp only [PTy.Complete] at h
      obtain ⟨us, hu, hp⟩ := paramsFromProto_complete ps h
      exact ⟨_, by rw [typeFromProto, hu]; rfl, by simpa [Ty.PlanType] using hp⟩
theorem typesFromProto_complete : ∀ (ms : List PTy), PTy.CompleteList ms →
    ∃ ts, typesFromProto ms = .ok ts ∧ Ty.PlanTypeList ts
  | [], _ => ⟨[], rfl, by simp [Ty.PlanTypeList]⟩
  | m :: ms, h => by
      simp only [PTy.CompleteList] at h
      obtain ⟨a, ha, hp⟩ := typeFromProto_complete m h.1
      obtain ⟨u, hr, hq⟩ := typesFromProto_complete ms h.2
      exact ⟨_, by rw [typesFromProto, ha, Res.ok_bind, hr]; rfl, by simp [Ty.PlanTypeList, hp, hq]⟩
theorem paramFromProto_complete : ∀ (m : PParam), m.Complete →
    ∃ t, paramFromProto m = .ok t ∧ t.PlanType
  | .unset, h => absurd h (by simp [PParam.Complete])
  | .null, _ => ⟨_, rfl, by simp [TParam.PlanType]⟩
  | .boolean b, _ => ⟨_, rfl, by simp [TParam.PlanType]⟩
  | .dataType t, h => by
      simp only [PParam.Complete] at h
      obtain ⟨a, ha, hp⟩ := typeFromProto_complete t h
      exact ⟨_, by rw [paramFromProto, ha]; rfl, by simpa [TParam.PlanType] using hp⟩
  | .integer i, _ => ⟨_, rfl, by simp [TParam.PlanType]⟩
  | .enum s, _ => ⟨_, rfl, by simp [TParam.PlanType]⟩
  | .string s, _ => ⟨_, rfl, by simp [TParam.PlanType]⟩
theorem paramsFromProto_complete : ∀ (ms : List PParam), PParam.CompleteList ms →
    ∃ ts, paramsFromProto ms = .ok ts ∧ TParam.PlanTypeList ts
  | [], _ => ⟨[], rfl, by simp [TParam.PlanTypeList]⟩
  | m :: ms, h => by
      simp only [PParam.CompleteList] at h
      obtain ⟨a, ha, hp⟩ := paramFromProto_complete m h.1
      obtain ⟨u, hr, hq⟩ := paramsFromProto_complete ms h.2
      exact ⟨_, by rw [paramsFromProto, ha, Res.ok_bind, hr]; rfl,
        by simp [TParam.PlanTypeList, hp, hq]⟩
end

theorem mapL_types_complete : ∀ (ms : List PTy), PTy.CompleteList ms →
    ∃ ts, Res.mapL typeFromProto ms = .ok ts ∧ Ty.PlanTypeList ts ∧ ts.length = ms.length
  | [], _ => ⟨[], rfl, by simp [Ty.PlanTypeList], rfl⟩
  | m :: ms, h => by
      simp only [PTy.CompleteList] at h
      obtain ⟨a, ha, hp⟩ := typeFromProto_complete m h.1
      obtain ⟨u, hr, hq, hl⟩ := mapL_types_complete ms h.2
      exact ⟨a :: u, by rw [Res.mapL, ha, Res.ok_bind, hr]; rfl,
        by simp [Ty.PlanTypeList, hp, hq], by simp [hl]⟩

/-! ## Literals -/

/-- A literal that was read and has a type. -/
def LitOk (r : Res Lit) : Prop := ∃ l t, r = .ok l ∧ l.getType = .ok t ∧ t.PlanType

theorem precisionLit_ok (k : Prec) (n : Nullability) (p : Int32) (v : Int64) (hp : ValidPrecision p)
    (hv : ¬ v < 0) : LitOk (.ok (precisionFromProto k n p v)) := by
  refine ⟨_, .prec k n 0 p, rfl, ?_, by simp [Ty.PlanType]⟩
  unfold precisionFromProto
  rw [protoToTimePrecision_valid hp]
  simp only [if_neg hv]
  rfl

theorem intervalDayLit_ok (n : Nullability) (v : UInt32) (d : DaySecond) (h : d.ModeOk) :
    LitOk (.ok (intervalDayFromProto n v d)) := by
  unfold intervalDayFromProto
  split
  · rename_i p hm
    rw [protoToTimePrecision_valid (h p hm)]
    exact ⟨_, _, rfl, rfl, by simp [Ty.PlanType]⟩
  · exact ⟨_, _, rfl, rfl, by simp [Ty.PlanType]⟩

theorem compoundLit_ok (n : Nullability) (ym : Option (Int32 × Int32)) (ds : Option DaySecond)
    (h : ∀ d, ds = some d → d.CompoundOk) : LitOk (.ok (intervalCompoundFromProto n ym ds)) := by
  cases ds with
  | none => exact ⟨_, _, rfl, rfl, by simp [Ty.PlanType]⟩
  | some d =>
    have hd := h d rfl
    unfold DaySecond.CompoundOk at hd
    have : ∃ x, compoundDayPart d = .ok x := by
      unfold compoundDayPart
      split
      · rename_i hm; simp [hm] at hd
      · rename_i us hm
        simp only [hm] at hd
        rw [if_neg (by simpa using hd)]
        exact ⟨_, rfl⟩
      · rename_i p hm
        simp only [hm] at hd
        rw [protoToTimePrecision_valid hd]
        exact ⟨_, rfl⟩
    obtain ⟨⟨p, ss⟩, hx⟩ := this
    unfold intervalCompoundFromProto
    simp only [hx]
    exact ⟨_, _, rfl, rfl, by simp [Ty.PlanType]⟩

mutual
theorem literal_complete : ∀ (m : PLit), m.Complete → LitOk (literalFromProto m)
  | .nil, h => absurd h (by simp [PLit.Complete])
  | .mk b v k, h => by
      simp only [PLit.Complete] at h
      rw [literalFromProto]
      exact literalKind_complete (getNullability b) v k h
theorem literalKind_complete (n : Nullability) (v : UInt32) : ∀ (k : PLitKind), k.Complete →
    LitOk (literalKindFromProto n v k)
  | .unset, h => absurd h (by simp [PLitKind.Complete])
  | .boolean b, _ => ⟨_, _, rfl, rfl, by simp [Ty.PlanType]⟩
  | .i8 i, _ => ⟨_, _, rfl, rfl, by simp [Ty.PlanType]⟩
  | .i16 i, _ => ⟨_, _, rfl, rfl, by simp [Ty.PlanType]⟩
  | .i32 i, _ => ⟨_, _, rfl, rfl, by simp [Ty.PlanType]⟩
  | .i64 i, _ => ⟨_, _, rfl, rfl, by simp [Ty.PlanType]⟩
  | .fp32 f, _ => ⟨_, _, rfl, rfl, by simp [Ty.PlanType]⟩
  | .fp64 f, _ => ⟨_, _, rfl, rfl, by simp [Ty.PlanType]⟩
  | .string s, _ => ⟨_, _, rfl, rfl, by simp [Ty.PlanType]⟩
  | .binary b, _ => ⟨_, _, rfl, rfl, by simp [Ty.PlanType]⟩
  | .timestamp i, _ => ⟨_, _, rfl, rfl, by simp [Ty.PlanType]⟩
  | .date i, _ => ⟨_, _, rfl, rfl, by simp [Ty.PlanType]⟩
  | .time i, _ => ⟨_, _, rfl, rfl, by simp [Ty.PlanType]⟩
  | .intervalDayToSecond d, h => by
      simp only [PLitKind.Complete] at h
      rw [literalKindFromProto]
      exact intervalDayLit_ok n v d h
  | .fixedChar s, _ => ⟨_, _, rfl, rfl, by simp [Ty.PlanType]⟩
  | .varChar s len, _ => ⟨_, _, rfl, rfl, by simp [Ty.PlanType]⟩
  | .fixedBinary b, _ => ⟨_, _, rfl, rfl, by simp [Ty.PlanType]⟩
  | .decimal b p s, _ => ⟨_, _, rfl, rfl, by simp [Ty.PlanType]⟩
  | .timestampTz i, _ => ⟨_, _, rfl, rfl, by simp [Ty.PlanType]⟩
  | .uuid b, _ => ⟨_, _, rfl, rfl, by simp [Ty.PlanType]⟩
  | .null t, h => by
      simp only [PLitKind.Complete] at h
      obtain ⟨u, hu, hp⟩ := typeFromProto_complete t h
      exact ⟨_, u, by rw [literalKindFromProto, hu]; rfl, rfl, hp⟩
  | .struct fs, h => by
      simp only [PLitKind.Complete] at h
      obtain ⟨ls, ts, hl, ht, hp⟩ := literals_complete fs h
      exact ⟨_, _, by rw [literalKindFromProto, hl, Res.ok_bind, ht]; rfl, rfl,
        by simpa [Ty.PlanType] using hp⟩
  | .map kvs, h => by
      simp only [PLitKind.Complete] at h
      obtain ⟨k, e, ls, tk, te, hl, hk, he, hp, hq⟩ := keyValues_complete kvs h.1 h.2
      exact ⟨.map (.mk k e :: ls) (.map n v tk te), .map n v tk te, by
        rw [literalKindFromProto, hl, Res.ok_bind]; simp only [hk, he, Res.ok_bind],
        rfl, by simp [Ty.PlanType, hp, hq]⟩
  | .list vs, h => by
      simp only [PLitKind.Complete] at h
      obtain ⟨ls, ts, hl, ht, hp⟩ := literals_complete vs h.2
      cases ls with
      | nil =>
        cases vs with
        | nil => exact absurd rfl h.1
        | cons a as =>
          rw [literalsFromProto] at hl
          obtain ⟨x, -, hl⟩ := Res.bind_eq_ok.1 hl
          obtain ⟨y, -, hl⟩ := Res.bind_eq_ok.1 hl
          cases hl
      | cons l ls =>
        rw [Lit.getTypes] at ht
        obtain ⟨t, h1, ht⟩ := Res.bind_eq_ok.1 ht
        obtain ⟨ts', h2, ht⟩ := Res.bind_eq_ok.1 ht
        cases ht
        simp only [Ty.PlanTypeList] at hp
        exact ⟨.list (l :: ls) (.list n v t), .list n v t, by
          rw [literalKindFromProto, hl, Res.ok_bind]; simp only [h1, Res.ok_bind], rfl,
          by simp [Ty.PlanType, hp.1]⟩
  | .emptyList none, h => absurd h (by simp [PLitKind.Complete])
  | .emptyList (some (a, b, e)), h => by
      simp only [PLitKind.Complete] at h
      obtain ⟨u, hu, hp⟩ := typeFromProto_complete e h
      exact ⟨_, _, by rw [literalKindFromProto, hu]; rfl, rfl, by simp [Ty.PlanType, hp]⟩
  | .emptyMap none, h => absurd h (by simp [PLitKind.Complete])
  | .emptyMap (some (a, b, k, e)), h => by
      simp only [PLitKind.Complete] at h
      obtain ⟨u, hu, hp⟩ := typeFromProto_complete k h.1
      obtain ⟨w, hw, hq⟩ := typeFromProto_complete e h.2
      exact ⟨_, _, by rw [literalKindFromProto, hu, Res.ok_bind, hw]; rfl, rfl,
        by simp [Ty.PlanType, hp, hq]⟩
  | .userDefined ref ps val, h => by
      simp only [PLitKind.Complete] at h
      obtain ⟨u, hu, hp⟩ := paramsFromProto_complete ps h
      exact ⟨_, _, by rw [literalKindFromProto, hu]; rfl, rfl, by simpa [Ty.PlanType] using hp⟩
  | .precisionTime p i, h => by
      simp only [PLitKind.Complete] at h
      rw [literalKindFromProto]
      exact precisionLit_ok _ n p i h.1 h.2
  | .precisionTimestamp p i, h => by
      simp only [PLitKind.Complete] at h
      rw [literalKindFromProto]
      exact precisionLit_ok _ n p i h.1 h.2
  | .precisionTimestampTz p i, h => by
      simp only [PLitKind.Complete] at h
      rw [literalKindFromProto]
      exact precisionLit_ok _ n p i h.1 h.2
  | .intervalYearToMonth y m, _ => ⟨_, _, rfl, rfl, by simp [Ty.PlanType]⟩
  | .intervalCompound ym ds, h => by
      rw [literalKindFromProto]
      refine compoundLit_ok n ym ds (fun d hd => ?_)
      subst hd
      simpa only [PLitKind.Complete] using h
theorem literals_complete : ∀ (ms : List PLit), PLit.CompleteList ms →
    ∃ ls ts, literalsFromProto ms = .ok ls ∧ Lit.getTypes ls = .ok ts ∧ Ty.PlanTypeList ts
  | [], _ => ⟨[], [], rfl, rfl, by simp [Ty.PlanTypeList]⟩
  | m :: ms, h => by
      simp only [PLit.CompleteList] at h
      obtain ⟨l, t, h1, h2, h3⟩ := literal_complete m h.1
      obtain ⟨ls, ts, g1, g2, g3⟩ := literals_complete ms h.2
      exact ⟨l :: ls, t :: ts, by rw [literalsFromProto, h1, Res.ok_bind, g1]; rfl,
        by rw [Lit.getTypes, h2, Res.ok_bind, g2]; rfl, by simp [Ty.PlanTypeList, h3, g3]⟩
theorem keyValues_complete : ∀ (ms : List PKeyValue), ms ≠ [] → PKeyValue.CompleteList ms →
    ∃ k e ls tk te, keyValuesFromProto ms = .ok (.mk k e :: ls) ∧ k.getType = .ok tk ∧
      e.getType = .ok te ∧ tk.PlanType ∧ te.PlanType
  | [], h, _ => absurd rfl h
  | .mk a b :: ms, _, h => by
      simp only [PKeyValue.CompleteList] at h
      obtain ⟨k, tk, h1, h2, h3⟩ := literal_complete a h.1
      obtain ⟨e, te, g1, g2, g3⟩ := literal_complete b h.2.1
      cases ms with
      | nil =>
        exact ⟨k, e, [], tk, te, by rw [keyValuesFromProto, h1, Res.ok_bind, g1]; rfl, h2, g2, h3, g3⟩
      | cons x xs =>
        obtain ⟨k', e', ls, tk', te', hl, -⟩ := keyValues_complete (x :: xs) (by simp) h.2.2
        exact ⟨k, e, _, tk, te, by
          rw [keyValuesFromProto, h1, Res.ok_bind, g1, Res.ok_bind, hl]; rfl, h2, g2, h3, g3⟩
end

/-! ## Reference steps -/

/-- The keys of a reference have types. -/
def Seg.KeysOk : Seg → Prop
  | .nil => True
  | .mapKey k c => (∃ t, k.getType = .ok t ∧ t.PlanType) ∧ c.KeysOk
  | .structField _ c => c.KeysOk
  | .listElement _ c => c.KeysOk

theorem seg_complete : ∀ (m : PSeg), m.KeysComplete →
    ∃ s, segFromProto m = .ok s ∧ s.KeysOk ∧ (m ≠ .nil → m ≠ .unset → s.isNil = false)
  | .nil, _ => ⟨.nil, rfl, by simp [Seg.KeysOk], fun h => absurd rfl h⟩
  | .unset, _ => ⟨.nil, rfl, by simp [Seg.KeysOk], fun _ h => absurd rfl h⟩
  | .mapKey k c, h => by
      simp only [PSeg.KeysComplete] at h
      obtain ⟨l, t, h1, h2, h3⟩ := literal_complete k h.1
      obtain ⟨s, g1, g2, -⟩ := seg_complete c h.2
      exact ⟨.mapKey l s, by rw [segFromProto, h1, Res.ok_bind, g1]; rfl, ⟨⟨t, h2, h3⟩, g2⟩, fun _ _ => rfl⟩
  | .structField f c, h => by
      simp only [PSeg.KeysComplete] at h
      obtain ⟨s, g1, g2, -⟩ := seg_complete c h
      exact ⟨.structField f s, by rw [segFromProto, g1]; rfl, g2, fun _ _ => rfl⟩
  | .listElement f c, h => by
      simp only [PSeg.KeysComplete] at h
      obtain ⟨s, g1, g2, -⟩ := seg_complete c h
      exact ⟨.listElement f s, by rw [segFromProto, g1]; rfl, g2, fun _ _ => rfl⟩

theorem planTypeList_mem : ∀ {ts : List Ty}, Ty.PlanTypeList ts → ∀ t ∈ ts, t.PlanType
  | [], _ => by simp
  | a :: as, h => by
      simp only [Ty.PlanTypeList] at h
      intro t ht
      rcases List.mem_cons.1 ht with rfl | ht
      · exact h.1
      · exact planTypeList_mem h.2 t ht

theorem planTypeList_of_mem : ∀ {ts : List Ty}, (∀ t ∈ ts, t.PlanType) → Ty.PlanTypeList ts
  | [], _ => by simp [Ty.PlanTypeList]
  | a :: as, h => by
      simp only [Ty.PlanTypeList]
      exact ⟨h a (by simp), planTypeList_of_mem fun t ht => h t (by simp [ht])⟩

/-- Not a panic, and a plan type if a value. -/
def TypeOk (r : Res Ty) : Prop := r ≠ .panic ∧ ∀ t, r = .ok t → t.PlanType

theorem typeOk_err : TypeOk .err := ⟨by simp, by simp⟩

theorem typeOk_ok {t : Ty} (h : t.PlanType) : TypeOk (.ok t) := ⟨by simp, fun u hu => by cases hu; exact h⟩

theorem seg_getType_ok : ∀ (s : Seg) (p : Ty), s.isNil = false → s.KeysOk → p.PlanType →
    TypeOk (s.getType p)
  | .nil, _, h, _, _ => by simp [Seg.isNil] at h
  | .mapKey k c, p, _, hk, hp => by
      simp only [Seg.KeysOk] at hk
      obtain ⟨⟨kt, h1, h2⟩, hc⟩ := hk
      unfold Seg.getType
      split
      · rename_i a b key v
        simp only [Ty.PlanType] at hp
        rw [h1, Res.ok_bind]
        obtain ⟨r, hr, -⟩ := equals_spec kt key h2
        rw [hr, Res.ok_bind]
        cases r
        · exact typeOk_err
        · simp only [Bool.not_true, Bool.false_eq_true, if_false]
          cases hn : c.isNil
          · simpa using seg_getType_ok c v hn hc hp.2
          · simpa using typeOk_ok hp.2
      · exact typeOk_err
  | .structField f c, p, _, hk, hp => by
      simp only [Seg.KeysOk] at hk
      unfold Seg.getType
      split
      · rename_i a b ts
        simp only [Ty.PlanType] at hp
        split
        · exact typeOk_err
        · rename_i hr
          have hr : 0 ≤ f.toInt ∧ f.toInt < ts.length := by
            rw [not_or] at hr
            refine ⟨?_, by omega⟩
            have := hr.1
            rw [Int32.lt_iff_toInt_lt] at this
            simpa using this
          have hi : ts[f.toInt.toNat]? = some (ts[f.toInt.toNat]'(by omega)) := by
            rw [List.getElem?_eq_getElem (by omega)]
          rw [Res.index_eq_ok.2 ⟨hr.1, hi⟩, Res.ok_bind]
          have hpt := planTypeList_mem hp _ (List.getElem_mem (show f.toInt.toNat < ts.length by omega))
          cases hn : c.isNil
          · simpa using seg_getType_ok c _ hn hk hpt
          · simpa using typeOk_ok hpt
      · exact typeOk_err
  | .listElement f c, p, _, hk, hp => by
      simp only [Seg.KeysOk] at hk
      unfold Seg.getType
      split
      · rename_i a b t
        simp only [Ty.PlanType] at hp
        cases hn : c.isNil
        · simpa using seg_getType_ok c _ hn hk hp
        · simpa using typeOk_ok hp
      · exact typeOk_err

end Verif
