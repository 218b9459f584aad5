import Verif.Spec.Reread
import Verif.Lemmas.Literals
import Verif.Lemmas.ExprProto
/-!
# Helper lemmas about reading, writing and reading again
-/

namespace Verif

mutual
theorem type_again : ∀ (m : PTy) (t : Ty), typeFromProto m = .ok t → typeFromProto m.normalise = .ok t
  | .unset, _, h => by simpa [PTy.normalise] using h
  | .prim _ _ _, _, h => by simpa [PTy.normalise] using h
  | .intervalDay n v none, _, h => by
      simp only [typeFromProto] at h
      cases h
      rfl
  | .intervalDay n v (some p), _, h => by simpa [PTy.normalise] using h
  | .intervalCompound _ _ _, _, h => by simpa [PTy.normalise] using h
  | .fixedBinary _ _ _, _, h => by simpa [PTy.normalise] using h
  | .fixedChar _ _ _, _, h => by simpa [PTy.normalise] using h
  | .varchar _ _ _, _, h => by simpa [PTy.normalise] using h
  | .decimal _ _ _ _, _, h => by simpa [PTy.normalise] using h
  | .precisionTime _ _ _, _, h => by simpa [PTy.normalise] using h
  | .precisionTimestamp _ _ _, _, h => by simpa [PTy.normalise] using h
  | .precisionTimestampTz _ _ _, _, h => by simpa [PTy.normalise] using h
  | .struct n v ts, t, h => by
      simp only [typeFromProto, PTy.normalise, Res.bind_eq_ok] at h ⊢
      obtain ⟨a, ha, h⟩ := h
      exact ⟨a, types_again ts a ha, h⟩
  | .func n ps r, t, h => by
      simp only [typeFromProto, PTy.normalise, Res.bind_eq_ok] at h ⊢
      obtain ⟨a, ha, b, hb, h⟩ := h
      exact ⟨a, types_again ps a ha, b, type_again r b hb, h⟩
  | .list n v e, t, h => by
      simp only [typeFromProto, PTy.normalise, Res.bind_eq_ok] at h ⊢
      obtain ⟨b, hb, h⟩ := h
      exact ⟨b, type_again e b hb, h⟩
  | .map n v k e, t, h => by
      simp only [typeFromProto, PTy.normalise, Res.bind_eq_ok] at h ⊢
      obtain ⟨a, ha, b, hb, h⟩ := h
      exact ⟨a, type_again k a ha, b, type_again e b hb, h⟩
  | .udt n v r ps, t, h => by
      simp only [typeFromProto, PTy.normalise, Res.bind_eq_ok] at h ⊢
      obtain ⟨a, ha, h⟩ := h
      exact ⟨a, params_again ps a ha, h⟩
theorem types_again : ∀ (m : List PTy) (t : List Ty), typesFromProto m = .ok t →
    typesFromProto (PTy.normaliseList m) = .ok t
  | [], _, h => by simpa [PTy.normaliseList] using h
  | m :: ms, t, h => by
      simp only [typesFromProto, PTy.normaliseList, Res.bind_eq_ok] at h ⊢
      obtain ⟨a, ha, b, hb, h⟩ := h
      exact ⟨a, type_again m a ha, b, types_again ms b hb, h⟩
theorem param_again : ∀ (m : PParam) (t : TParam), paramFromProto m = .ok t →
    paramFromProto m.normalise = .ok t
  | .unset, _, h => by simpa [PParam.normalise] using h
  | .null, _, h => by simpa [PParam.normalise] using h
  | .boolean _, _, h => by simpa [PParam.normalise] using h
  | .integer _, _, h => by simpa [PParam.normalise] using h
  | .enum _, _, h => by simpa [PParam.normalise] using h
  | .string _, _, h => by simpa [PParam.normalise] using h
  | .dataType t, x, h => by
      simp only [paramFromProto, PParam.normalise, Res.bind_eq_ok] at h ⊢
      obtain ⟨a, ha, h⟩ := h
      exact ⟨a, type_again t a ha, h⟩
theorem params_again : ∀ (m : List PParam) (t : List TParam), paramsFromProto m = .ok t →
    paramsFromProto (PParam.normaliseList m) = .ok t
  | [], _, h => by simpa [PParam.normaliseList] using h
  | m :: ms, t, h => by
      simp only [paramsFromProto, PParam.normaliseList, Res.bind_eq_ok] at h ⊢
      obtain ⟨a, ha, b, hb, h⟩ := h
      exact ⟨a, param_again m a ha, b, params_again ms b hb, h⟩
end

/-- `x` is written as something that is read as `x`. -/
def Again {α β : Type} (enc : α → Res β) (dec : β → Res α) (x : α) : Prop :=
  ∃ m, enc x = .ok m ∧ dec m = .ok x

theorem again_list {α β : Type} {enc : α → Res β} {dec : β → Res α} : ∀ (xs : List α),
    (∀ x ∈ xs, Again enc dec x) → Again (Res.mapL enc) (Res.mapL dec) xs
  | [], _ => ⟨[], rfl, rfl⟩
  | x :: xs, h => by
      obtain ⟨m, h1, h2⟩ := h x (by simp)
      obtain ⟨ms, h3, h4⟩ := again_list xs fun y hy => h y (by simp [hy])
      exact ⟨m :: ms, by simp [h1, h3], by simp [h2, h4]⟩

theorem read_again {α β : Type} {enc : α → Res β} {dec : β → Res α} {P : β → Prop}
    (H : ∀ m x, P m → dec m = .ok x → Again enc dec x) : ∀ (ms : List β) (xs : List α),
    (∀ m ∈ ms, P m) → Res.mapL dec ms = .ok xs → ∀ x ∈ xs, Again enc dec x
  | [], _, _, h => by simp only [Res.mapL_nil] at h; cases h; simp
  | m :: ms, xs, hp, h => by
      simp only [Res.mapL_cons, Res.bind_eq_ok] at h
      obtain ⟨a, ha, b, hb, h⟩ := h
      cases h
      intro x hx
      rcases List.mem_cons.1 hx with rfl | hx
      · exact H m _ (hp m (by simp)) ha
      · exact read_again H ms b (fun y hy => hp y (by simp [hy])) hb x hx

theorem ty_again (m : PTy) (t : Ty) (hm : m.NoCompound) (h : typeFromProto m = .ok t) :
    Again typeToProto typeFromProto t := ⟨_, type_to_from m t hm h, type_again m t h⟩

theorem tys_again (ms : List PTy) (ts : List Ty) (hm : ∀ m ∈ ms, m.NoCompound)
    (h : Res.mapL typeFromProto ms = .ok ts) : Again (Res.mapL typeToProto) (Res.mapL typeFromProto) ts :=
  again_list ts (read_again ty_again ms ts hm h)

theorem tyArg_again (m : PTy) (t : Ty) (hm : m.PlainArg) (h : typeFromProto m = .ok t) :
    Again typeArgToProto typeFromProto t := by
  rcases hm with hm | ⟨n, v, p, rfl⟩
  · obtain ⟨m', h1, h2⟩ := ty_again m t hm h
    refine ⟨m', ?_, h2⟩
    cases t with
    | intervalCompound b n v p =>
      cases b
      · exact h1
      · simp [typeToProto] at h1
    | _ => exact h1
  · simp only [typeFromProto, Res.bind_eq_ok] at h
    obtain ⟨q, hq, h⟩ := h
    cases h
    obtain rfl := precisionOrPanic_eq_ok hq
    exact ⟨_, rfl, by simp [typeFromProto, hq]⟩

theorem again_header (b : Bool) : (getNullability b == NullabilityNullable) = b := by
  cases b <;> rfl

theorem precision_ok {p : Int32} (h : ValidPrecision p) : protoToTimePrecision p = .ok p := by
  have := precisionOrPanic_valid h
  unfold precisionOrPanic at this
  cases hq : protoToTimePrecision p with
  | ok q => rw [hq] at this; exact this
  | err => rw [hq] at this; simp at this
  | panic => rw [hq] at this; simp at this

abbrev LitAgain (l : Lit) : Prop := Again literalToProto literalFromProto l

theorem compound_again (b : Bool) (ym : Option (Int32 × Int32)) (ds : Option DaySecond)
    (hp : ∀ x, ds = some x → x.CompoundOk ∧ x.PrecisionShown) :
    LitAgain (intervalCompoundFromProto (getNullability b) ym ds) := by
  have key : ∀ (y m d s : Int32) (ss : Int64) (p : Int32), ValidPrecision p →
      (d ≠ 0 ∨ s ≠ 0 ∨ ss ≠ 0 ∨ p = 0) →
      LitAgain (.intervalCompound y m d s ss p (getNullability b)) := by
    intro y m d s ss p hv hs
    refine ⟨_, rfl, ?_⟩
    have hn : ((Ty.intervalCompound false (getNullability b) 0 p).nullability == NullabilityNullable) = b :=
      again_header b
    simp only [litHeader, hn, literalFromProto, compoundLitKind, literalKindFromProto,
      intervalCompoundFromProto]
    have hy : (y ≠ 0 ∨ m ≠ 0) ∨ (y = 0 ∧ m = 0) := by
      by_cases h1 : y = 0 <;> by_cases h2 : m = 0 <;> simp [h1, h2]
    have hd : (d ≠ 0 ∨ s ≠ 0 ∨ ss ≠ 0) ∨ (d = 0 ∧ s = 0 ∧ ss = 0 ∧ p = 0) := by
      by_cases h1 : d = 0 <;> by_cases h2 : s = 0 <;> by_cases h3 : ss = 0 <;> simp_all
    rcases hy with hy | ⟨rfl, rfl⟩ <;> rcases hd with hd | ⟨rfl, rfl, rfl, rfl⟩
    · simp [hy, hd, compoundDayPart, precision_ok hv]
    · simp [hy]
    · simp [hd, compoundDayPart, precision_ok hv]
    · simp
  cases ds with
  | none => exact key _ _ 0 0 0 0 (by simp [ValidPrecision]) (by simp)
  | some d =>
    obtain ⟨hc, hs⟩ := hp d rfl
    unfold DaySecond.CompoundOk at hc
    unfold DaySecond.PrecisionShown at hs
    simp only [intervalCompoundFromProto, compoundDayPart]
    cases hm : d.mode with
    | unset => rw [hm] at hc; exact hc.elim
    | microseconds us =>
      rw [hm] at hc hs
      simp only at hc hs ⊢
      have : ¬ d.subseconds > 0 := by
        rw [GT.gt, Int64.lt_iff_toInt_lt]
        rw [Int64.le_iff_toInt_le] at hc
        omega
      rw [if_neg this, precision_ok (by simp [ValidPrecision])]
      refine key _ _ _ _ _ _ (by simp [ValidPrecision]) ?_
      rcases hs with h | h | h
      · exact .inl h
      · exact .inr (.inl h)
      · refine .inr (.inr (.inl ?_))
        intro hz
        apply h
        have := congrArg Int64.toInt hz
        simp at this
        exact Int32.toInt_inj.1 (by simpa using this)
    | precision p =>
      rw [hm] at hc hs
      simp only at hc hs ⊢
      rw [precision_ok hc]
      exact key _ _ _ _ _ _ hc hs

local macro "again_lit" : tactic => `(tactic|
  simp [litHeader, Ty.nullability, again_header, literalFromProto, literalKindFromProto, Ty.variation,
    bytesLitKind, PTy.getList, PTy.getMap])

mutual
theorem lit_again : ∀ (m : PLit) (l : Lit), m.Plain → literalFromProto m = .ok l → LitAgain l
  | .nil, l, _, h => by simp [literalFromProto] at h
  | .mk b v k, l, hp, h => litKind_again b v k l (by simpa [PLit.Plain] using hp)
      (by simpa [literalFromProto] using h)
theorem litKind_again (b : Bool) (v : UInt32) : ∀ (k : PLitKind) (l : Lit), k.Plain →
    literalKindFromProto (getNullability b) v k = .ok l → LitAgain l
  | .unset, l, _, h => by simp [literalKindFromProto] at h
  | .boolean x, l, _, h => by
      simp only [literalKindFromProto] at h; cases h
      exact ⟨_, rfl, by again_lit⟩
  | .i32 x, l, _, h => by
      simp only [literalKindFromProto] at h; cases h
      exact ⟨_, rfl, by again_lit⟩
  | .i64 x, l, _, h => by
      simp only [literalKindFromProto] at h; cases h
      exact ⟨_, rfl, by again_lit⟩
  | .fp32 x, l, _, h => by
      simp only [literalKindFromProto] at h; cases h
      exact ⟨_, rfl, by again_lit⟩
  | .fp64 x, l, _, h => by
      simp only [literalKindFromProto] at h; cases h
      exact ⟨_, rfl, by again_lit⟩
  | .string x, l, _, h => by
      simp only [literalKindFromProto] at h; cases h
      exact ⟨_, rfl, by again_lit⟩
  | .binary x, l, _, h => by
      simp only [literalKindFromProto] at h; cases h
      exact ⟨_, rfl, by again_lit⟩
  | .timestamp x, l, _, h => by
      simp only [literalKindFromProto] at h; cases h
      exact ⟨_, rfl, by again_lit⟩
  | .date x, l, _, h => by
      simp only [literalKindFromProto] at h; cases h
      exact ⟨_, rfl, by again_lit⟩
  | .time x, l, _, h => by
      simp only [literalKindFromProto] at h; cases h
      exact ⟨_, rfl, by again_lit⟩
  | .fixedChar x, l, _, h => by
      simp only [literalKindFromProto] at h; cases h
      exact ⟨_, rfl, by again_lit⟩
  | .fixedBinary x, l, _, h => by
      simp only [literalKindFromProto] at h; cases h
      exact ⟨_, rfl, by again_lit⟩
  | .decimal x p s, l, _, h => by
      simp only [literalKindFromProto] at h; cases h
      exact ⟨_, rfl, by again_lit⟩
  | .timestampTz x, l, _, h => by
      simp only [literalKindFromProto] at h; cases h
      exact ⟨_, rfl, by again_lit⟩
  | .uuid x, l, _, h => by
      simp only [literalKindFromProto] at h; cases h
      exact ⟨_, rfl, by again_lit⟩
  | .intervalYearToMonth y m, l, _, h => by
      simp only [literalKindFromProto] at h; cases h
      exact ⟨_, rfl, by again_lit⟩
  | .i8 x, l, _, h => by
      simp only [literalKindFromProto] at h; cases h
      exact ⟨_, rfl, by again_lit⟩
  | .i16 x, l, _, h => by
      simp only [literalKindFromProto] at h; cases h
      exact ⟨_, rfl, by again_lit⟩
  | .varChar x n, l, _, h => by
      simp only [literalKindFromProto] at h; cases h
      exact ⟨_, rfl, by again_lit⟩
  | .intervalDayToSecond d, l, hp, h => by
      simp only [literalKindFromProto] at h; cases h
      simp only [PLitKind.Plain] at hp
      unfold intervalDayFromProto
      cases hm : d.mode with
      | precision p =>
        simp only [precision_ok (hp p hm)]
        exact ⟨_, rfl, by again_lit; simp [intervalDayFromProto, hm, precision_ok (hp p hm)]⟩
      | _ => exact ⟨_, rfl, by again_lit; simp [intervalDayFromProto, hm]⟩
  | .null t, l, hp, h => by
      simp only [literalKindFromProto, Res.bind_eq_ok] at h
      obtain ⟨a, ha, h⟩ := h
      cases h
      obtain ⟨m, h1, h2⟩ := ty_again t a (by simpa [PLitKind.Plain] using hp) ha
      exact ⟨.mk true a.variation (.null m), by simp [literalToProto, h1],
        by simp [literalFromProto, literalKindFromProto, h2]⟩
  | .struct fs, l, hp, h => by
      simp only [literalKindFromProto, Res.bind_eq_ok] at h
      obtain ⟨ls, h1, ts, h2, h⟩ := h
      cases h
      obtain ⟨ms, h3, h4⟩ := lits_again fs ls (by simpa [PLitKind.Plain] using hp) h1
      exact ⟨_, by simp only [literalToProto, h3, Res.ok_bind]; rfl, by again_lit; simp [h4, h2]⟩
  | .map kvs, l, hp, h => by
      simp only [literalKindFromProto, Res.bind_eq_ok] at h
      obtain ⟨ls, h1, h⟩ := h
      obtain ⟨ms, h3, h4⟩ := kvs_again kvs ls (by simpa [PLitKind.Plain] using hp) h1
      match ls, h with
      | .mk k e :: ls, h =>
        simp only [Res.bind_eq_ok] at h
        obtain ⟨tk, hk, te, he, h⟩ := h
        cases h
        exact ⟨_, by simp only [literalToProto, h3, Res.ok_bind]; rfl, by again_lit; simp [h4, hk, he]⟩
  | .list vs, l, hp, h => by
      simp only [literalKindFromProto, Res.bind_eq_ok] at h
      obtain ⟨ls, h1, h⟩ := h
      obtain ⟨ms, h3, h4⟩ := lits_again vs ls (by simpa [PLitKind.Plain] using hp) h1
      match ls, h with
      | x :: ls, h =>
        simp only [Res.bind_eq_ok] at h
        obtain ⟨t, ht, h⟩ := h
        cases h
        match ms with
        | [] => simp [literalsFromProto] at h4
        | m :: ms =>
          exact ⟨_, by simp only [literalToProto, h3, Res.ok_bind]; rfl, by again_lit; simp [h4, ht]⟩
  | .emptyList none, l, _, h => by simp [literalKindFromProto] at h
  | .emptyList (some (n, w, e)), l, hp, h => by
      simp only [literalKindFromProto, Res.bind_eq_ok] at h
      obtain ⟨t, ht, h⟩ := h
      cases h
      simp only [PLitKind.Plain] at hp
      obtain ⟨m, h1, h2⟩ := ty_again e t (hp n w e rfl) ht
      exact ⟨_, by simp only [literalToProto, literalsToProto, typeToProto, h1, Res.ok_bind]; rfl,
        by again_lit; simp [h2]⟩
  | .emptyMap none, l, _, h => by simp [literalKindFromProto] at h
  | .emptyMap (some (n, w, k, e)), l, hp, h => by
      simp only [literalKindFromProto, Res.bind_eq_ok] at h
      obtain ⟨tk, hk, t, ht, h⟩ := h
      cases h
      simp only [PLitKind.Plain] at hp
      obtain ⟨m, h1, h2⟩ := ty_again e t (hp n w k e rfl).2 ht
      obtain ⟨mk, h3, h4⟩ := ty_again k tk (hp n w k e rfl).1 hk
      exact ⟨_, by simp only [literalToProto, typeToProto, h1, h3, Res.ok_bind]; rfl,
        by again_lit; simp [h2, h4]⟩
  | .userDefined ref ps val, l, hp, h => by
      simp only [literalKindFromProto, Res.bind_eq_ok] at h
      obtain ⟨ts, ht, h⟩ := h
      cases h
      simp only [PLitKind.Plain] at hp
      have h1 := params_to_from ps ts hp.1 ht
      have h2 := params_again ps ts ht
      cases val with
      | unset => exact absurd rfl hp.2
      | value u b => exact ⟨_, by simp only [literalToProto, protoLitKind, h1, Res.ok_bind]; rfl, by again_lit; simp [h2]⟩
      | struct fs => exact ⟨_, by simp only [literalToProto, protoLitKind, h1, Res.ok_bind]; rfl, by again_lit; simp [h2]⟩
  | .precisionTime p x, l, hp, h => by
      simp only [literalKindFromProto] at h; cases h
      simp only [PLitKind.Plain] at hp
      simp only [precisionFromProto, precision_ok hp.1, hp.2, if_false]
      exact ⟨_, rfl, by again_lit; simp [precisionFromProto, precision_ok hp.1, hp.2]⟩
  | .precisionTimestamp p x, l, hp, h => by
      simp only [literalKindFromProto] at h; cases h
      simp only [PLitKind.Plain] at hp
      simp only [precisionFromProto, precision_ok hp.1, hp.2, if_false]
      exact ⟨_, rfl, by again_lit; simp [precisionFromProto, precision_ok hp.1, hp.2]⟩
  | .precisionTimestampTz p x, l, hp, h => by
      simp only [literalKindFromProto] at h; cases h
      simp only [PLitKind.Plain] at hp
      simp only [precisionFromProto, precision_ok hp.1, hp.2, if_false]
      exact ⟨_, rfl, by again_lit; simp [precisionFromProto, precision_ok hp.1, hp.2]⟩
  | .intervalCompound ym ds, l, hp, h => by
      simp only [literalKindFromProto] at h; cases h
      exact compound_again b ym ds (by simpa only [PLitKind.Plain] using hp)
theorem lits_again : ∀ (ms : List PLit) (ls : List Lit), PLit.PlainList ms → literalsFromProto ms = .ok ls →
    Again literalsToProto literalsFromProto ls
  | [], _, _, h => by simp only [literalsFromProto] at h; cases h; exact ⟨[], rfl, rfl⟩
  | m :: ms, ls, hp, h => by
      simp only [literalsFromProto, Res.bind_eq_ok] at h
      obtain ⟨a, ha, b, hb, h⟩ := h
      cases h
      simp only [PLit.PlainList] at hp
      obtain ⟨x, h1, h2⟩ := lit_again m a hp.1 ha
      obtain ⟨y, h3, h4⟩ := lits_again ms b hp.2 hb
      exact ⟨x :: y, by simp [literalsToProto, h1, h3], by simp [literalsFromProto, h2, h4]⟩
theorem kvs_again : ∀ (ms : List PKeyValue) (ls : List KeyValue), PKeyValue.PlainList ms →
    keyValuesFromProto ms = .ok ls → Again keyValuesToProto keyValuesFromProto ls
  | [], _, _, h => by simp only [keyValuesFromProto] at h; cases h; exact ⟨[], rfl, rfl⟩
  | .mk k v :: ms, ls, hp, h => by
      simp only [keyValuesFromProto, Res.bind_eq_ok] at h
      obtain ⟨a, ha, d, hd, b, hb, h⟩ := h
      cases h
      simp only [PKeyValue.PlainList] at hp
      obtain ⟨x, h1, h2⟩ := lit_again k a hp.1 ha
      obtain ⟨z, h5, h6⟩ := lit_again v d hp.2.1 hd
      obtain ⟨y, h3, h4⟩ := kvs_again ms b hp.2.2 hb
      exact ⟨.mk x z :: y, by simp [keyValuesToProto, h1, h3, h5],
        by simp [keyValuesFromProto, h2, h4, h6]⟩
end

/-! ## Expressions -/

theorem segChild_again : ∀ (m : PSeg) (s : Seg), m.KeysPlain → segFromProto m = .ok s →
    Again segChildToProto segFromProto s
  | .nil, _, _, h => by simp only [segFromProto] at h; cases h; exact ⟨.nil, rfl, rfl⟩
  | .unset, _, _, h => by simp only [segFromProto] at h; cases h; exact ⟨.nil, rfl, rfl⟩
  | .mapKey k c, s, hp, h => by
      simp only [segFromProto, Res.bind_eq_ok] at h
      obtain ⟨a, ha, d, hd, h⟩ := h
      cases h
      obtain ⟨x, h1, h2⟩ := lit_again k a hp.1 ha
      obtain ⟨y, h3, h4⟩ := segChild_again c d hp.2 hd
      exact ⟨.mapKey x y, by simp [segChildToProto, h1, h3], by simp [segFromProto, h2, h4]⟩
  | .structField f c, s, hp, h => by
      simp only [segFromProto, Res.bind_eq_ok] at h
      obtain ⟨d, hd, h⟩ := h
      cases h
      obtain ⟨y, h3, h4⟩ := segChild_again c d hp hd
      exact ⟨.structField f y, by simp [segChildToProto, h3], by simp [segFromProto, h4]⟩
  | .listElement f c, s, hp, h => by
      simp only [segFromProto, Res.bind_eq_ok] at h
      obtain ⟨d, hd, h⟩ := h
      cases h
      obtain ⟨y, h3, h4⟩ := segChild_again c d hp hd
      exact ⟨.listElement f y, by simp [segChildToProto, h3], by simp [segFromProto, h4]⟩

theorem seg_again {m : PSeg} {s : Seg} (hp : m.KeysPlain) (h : segFromProto m = .ok s)
    (hn : s.isNil = false) : Again segToProto segFromProto s := by
  obtain ⟨x, h1, h2⟩ := segChild_again m s hp h
  refine ⟨x, ?_, h2⟩
  cases s with
  | nil => simp [Seg.isNil] at hn
  | _ => exact h1

theorem ref_again {reg : Reg} {base : Option (List Ty)} {root : ERoot} {m : RefMsg} {r : ERef × Option Ty}
    (hp : m.Plain reg) (h : refFromProto reg base root m = .ok r) :
    ∃ m', refToProto reg r.1 = .ok m' ∧ refFromProto reg base root m' = .ok r := by
  cases m with
  | unset => simp only [refFromProto] at h; cases h; exact ⟨.unset, rfl, rfl⟩
  | masked m =>
    simp only [refFromProto] at h
    cases h
    exact ⟨_, rfl, by simp only [refFromProto]; rw [show reg.maskFrom (reg.maskTo (reg.maskFrom m)) = _ from hp]⟩
  | direct m =>
    simp only [refFromProto, Res.bind_eq_ok] at h
    obtain ⟨s, hs, h⟩ := h
    cases hn : s.isNil with
    | true =>
      simp only [hn, if_true] at h
      have : r = (.nil, none) := by
        cases root with
        | rootReference =>
          cases base with
          | none => cases h; rfl
          | some ts => simp at h
        | expr e => simp only [Res.bind_eq_ok] at h; obtain ⟨_, _, h⟩ := h; simp at h
        | _ => cases h; rfl
      subst this
      exact ⟨.unset, rfl, rfl⟩
    | false =>
      obtain ⟨x, h1, h2⟩ := seg_again hp hs hn
      have hr : r.1 = .seg s := by
        simp only [hn, if_false, Bool.false_eq_true] at h
        cases root with
        | rootReference =>
          cases base with
          | none => cases h; rfl
          | some ts => simp only [Res.bind_eq_ok] at h; obtain ⟨_, _, h⟩ := h; cases h; rfl
        | expr e =>
          simp only [Res.bind_eq_ok] at h
          obtain ⟨_, _, _, _, h⟩ := h; cases h; rfl
        | _ => cases h; rfl
      refine ⟨.direct x, by rw [hr]; simp [refToProto, h1], ?_⟩
      simp only [refFromProto, h2, Res.ok_bind]
      exact h

theorem call_again {reg : Reg} {lookup : UInt32 → Option String} (hr : MadeUpStays reg lookup) {ref : UInt32}
    {f : UInt32 × String} (h : resolveCall reg lookup ref = .ok f) :
    resolveCall reg lookup f.1 = .ok f := by
  unfold resolveCall at h
  cases hd : reg.decodeFunc ref with
  | none => simp [hd] at h
  | some id =>
    simp only [hd] at h
    cases hl : lookup ref with
    | some d =>
      simp only [hl] at h
      cases h
      simp [resolveCall, hd, hl]
    | none =>
      simp only [hl] at h
      obtain ⟨id', h1, h2⟩ := hr ref id f.1 f.2 hd hl h
      rcases h2 with h2 | ⟨h2, h3⟩
      · simp [resolveCall, h1, h2]
      · simp [resolveCall, h1, h2, h3]

theorem bound_again (b : Option BoundMsg) :
    boundFromProto ((boundFromProto b).map Bound.toMsg) = boundFromProto b := by
  match b with
  | none => rfl
  | some .unset => rfl
  | some (.preceding _) => rfl
  | some (.following _) => rfl
  | some .currentRow => rfl
  | some .unbounded => rfl

theorem win_again (w : WinMsg) : w.toAttrs.toMsg.toAttrs = w.toAttrs := by
  simp [WinMsg.toAttrs, WinAttrs.toMsg, bound_again]

theorem sortKind_again {k : SortKindMsg} {k' : SortKind} (h : sortKindFromProto k = .ok k') :
    sortKindFromProto k'.toMsg = .ok k' := by
  cases k <;> simp [sortKindFromProto] at h <;> subst h <;> rfl

abbrev ExprAgain (reg : Reg) (base : Option (List Ty)) (e : Expr) : Prop :=
  Again (Expr.toProto reg) (Expr.fromProto reg base) e

theorem again_not_nil {reg : Reg} {base : Option (List Ty)} {m : ExprMsg} {e : Expr}
    (h : Expr.fromProto reg base m = .ok e) : m.isNil = false := by
  cases m <;> simp [Expr.fromProto] at h <;> rfl

theorem optToProto_of_ok {reg : Reg} {e : Expr} {m : ExprMsg} (h : e.toProto reg = .ok m) :
    Expr.optToProto reg e = .ok m := by
  cases e with
  | nil => simp [Expr.toProto] at h
  | _ => simpa only [Expr.optToProto] using h

local macro "again_nil" : tactic => `(tactic|
  simp [Expr.toProtoList, Expr.fromProtoList, EPair.toProtoList, EPair.fromProtoList, ECase.toProtoList,
    ECase.fromProtoList, ERow.toProtoList, ERow.fromProtoList, ERoot.toProto, ERoot.fromProto,
    EArg.toProtoList, EArg.fromProtoList, EArg.toProto, EArg.fromProto, ESort.toProtoList,
    ESort.fromProtoList])

section
variable (reg : Reg) (base : Option (List Ty)) (hsc : MadeUpStays reg reg.scalar)
  (hwi : MadeUpStays reg reg.window)
include hsc hwi

mutual
theorem expr_again : ∀ (m : ExprMsg) (e : Expr), m.Plain reg → Expr.fromProto reg base m = .ok e →
    ExprAgain reg base e
  | .nil, e, _, h => by simp [Expr.fromProto] at h
  | .unset, e, _, h => by simp [Expr.fromProto] at h
  | .lit m, e, hp, h => by
      simp only [Expr.fromProto, Res.bind_eq_ok] at h
      obtain ⟨l, hl, h⟩ := h
      cases h
      obtain ⟨x, h1, h2⟩ := lit_again m l (by simpa [ExprMsg.Plain] using hp) hl
      rw [ofLit_sent h1]
      exact ⟨.lit x, by simp [Expr.toProto, h1], by simp [Expr.fromProto, h2, ofLit_sent h1]⟩
  | .selection root ref, e, hp, h => by
      simp only [Expr.fromProto, Res.bind_eq_ok] at h
      obtain ⟨r, hr, f, hf, h⟩ := h
      cases h
      simp only [ExprMsg.Plain] at hp
      obtain ⟨x, h1, h2⟩ := root_again root r hp.1 hr
      obtain ⟨y, h3, h4⟩ := ref_again hp.2 hf
      exact ⟨.selection x y, by simp [Expr.toProto, h1, h3], by simp [Expr.fromProto, h2, h4]⟩
  | .scalar ref options out args, e, hp, h => by
      simp only [Expr.fromProto, Res.bind_eq_ok] at h
      obtain ⟨as, has, h⟩ := h
      cases out with
      | none => simp at h
      | some out =>
        simp only [Res.bind_eq_ok] at h
        obtain ⟨f, hf, t, ht, h⟩ := h
        cases h
        simp only [ExprMsg.Plain] at hp
        obtain ⟨x, h1, h2⟩ := args_again args as hp.2 has
        obtain ⟨y, h3, h4⟩ := ty_again out t (hp.1 out rfl) ht
        exact ⟨.scalar f.1 options (some y) x, by simp [Expr.toProto, h1, h3],
          by simp [Expr.fromProto, h2, h4, call_again hsc hf]⟩
  | .window ref options out w args sorts parts, e, hp, h => by
      simp only [Expr.fromProto, Res.bind_eq_ok] at h
      obtain ⟨as, has, ps, hps, ss, hss, h⟩ := h
      cases out with
      | none => simp at h
      | some out =>
        simp only [Res.bind_eq_ok] at h
        obtain ⟨f, hf, t, ht, h⟩ := h
        cases h
        simp only [ExprMsg.Plain] at hp
        obtain ⟨x, h1, h2⟩ := args_again args as hp.2.1 has
        obtain ⟨z, h5, h6⟩ := sorts_again sorts ss hp.2.2.1 hss
        obtain ⟨u, h7, h8⟩ := exprs_again parts ps hp.2.2.2 hps
        obtain ⟨y, h3, h4⟩ := ty_again out t (hp.1 out rfl) ht
        exact ⟨.window f.1 options (some y) w.toAttrs.toMsg x z u, by simp [Expr.toProto, h1, h3, h5, h7],
          by simp [Expr.fromProto, h2, h4, h6, h8, call_again hwi hf, win_again]⟩
  | .ifThen ifs els, e, hp, h => by
      simp only [Expr.fromProto, Res.bind_eq_ok] at h
      obtain ⟨a, ha, b, hb, h⟩ := h
      cases h
      simp only [ExprMsg.Plain] at hp
      obtain ⟨x, h1, h2⟩ := expr_again els a hp.2 ha
      obtain ⟨y, h3, h4⟩ := pairs_again ifs b hp.1 hb
      exact ⟨.ifThen y x, by simp [Expr.toProto, optToProto_of_ok h1, h3], by simp [Expr.fromProto, h2, h4]⟩
  | .switch mt ifs els, e, hp, h => by
      simp only [Expr.fromProto, Res.bind_eq_ok] at h
      obtain ⟨a, ha, b, hb, d, hd, h⟩ := h
      cases h
      simp only [ExprMsg.Plain] at hp
      obtain ⟨x, h1, h2⟩ := expr_again mt a hp.1 ha
      obtain ⟨y, h3, h4⟩ := expr_again els b hp.2.2 hb
      obtain ⟨z, h5, h6⟩ := cases_again ifs d hp.2.1 hd
      exact ⟨.switch x z y, by simp [Expr.toProto, optToProto_of_ok h3, h1, h5],
        by simp [Expr.fromProto, h2, h4, h6]⟩
  | .singularOr v os, e, hp, h => by
      simp only [Expr.fromProto, Res.bind_eq_ok] at h
      obtain ⟨a, ha, b, hb, h⟩ := h
      cases h
      simp only [ExprMsg.Plain] at hp
      obtain ⟨x, h1, h2⟩ := expr_again v a hp.1 ha
      obtain ⟨y, h3, h4⟩ := exprs_again os b hp.2 hb
      exact ⟨.singularOr x y, by simp [Expr.toProto, h1, h3], by simp [Expr.fromProto, h2, h4]⟩
  | .multiOr v os, e, hp, h => by
      simp only [Expr.fromProto, Res.bind_eq_ok] at h
      obtain ⟨a, ha, b, hb, h⟩ := h
      cases h
      simp only [ExprMsg.Plain] at hp
      obtain ⟨x, h1, h2⟩ := exprs_again v a hp.1 ha
      obtain ⟨y, h3, h4⟩ := rows_again os b hp.2 hb
      exact ⟨.multiOr x y, by simp [Expr.toProto, h1, h3], by simp [Expr.fromProto, h2, h4]⟩
  | .cast ty input fail, e, hp, h => by
      cases ty with
      | none => simp [Expr.fromProto] at h
      | some ty =>
        simp only [Expr.fromProto, Res.bind_eq_ok] at h
        obtain ⟨a, ha, t, ht, h⟩ := h
        cases h
        simp only [ExprMsg.Plain] at hp
        obtain ⟨x, h1, h2⟩ := expr_again input a hp.2 ha
        obtain ⟨y, h3, h4⟩ := ty_again ty t (hp.1 ty rfl) ht
        exact ⟨.cast (some y) x fail, by simp [Expr.toProto, h1, h3], by simp [Expr.fromProto, h2, h4]⟩
  | .mapE n v kvs, e, hp, h => by
      cases kvs with
      | nil => simp [Expr.fromProto] at h
      | cons kv kvs =>
        simp only [Expr.fromProto, Res.bind_eq_ok] at h
        obtain ⟨a, ha, h⟩ := h
        cases h
        simp only [ExprMsg.Plain] at hp
        obtain ⟨x, h1, h2⟩ := pairs_again (kv :: kvs) a hp ha
        cases x with
        | nil =>
          simp only [EPair.fromProtoList] at h2
          cases h2
          obtain ⟨p, q⟩ := kv
          simp only [EPair.fromProtoList, Res.bind_eq_ok] at ha
          obtain ⟨_, _, _, _, _, _, ha⟩ := ha
          cases ha
        | cons y ys => exact ⟨.mapE n v (y :: ys), by simp [Expr.toProto, h1], by simp only [Expr.fromProto, h2]; rfl⟩
  | .structE n v fs, e, hp, h => by
      simp only [Expr.fromProto, Res.bind_eq_ok] at h
      obtain ⟨a, ha, h⟩ := h
      cases h
      simp only [ExprMsg.Plain] at hp
      obtain ⟨x, h1, h2⟩ := exprs_again fs a hp ha
      exact ⟨.structE n v x, by simp [Expr.toProto, h1], by simp [Expr.fromProto, h2]⟩
  | .listE n v vs, e, hp, h => by
      cases vs with
      | nil => simp [Expr.fromProto] at h
      | cons w ws =>
        simp only [Expr.fromProto, Res.bind_eq_ok] at h
        obtain ⟨a, ha, h⟩ := h
        cases h
        simp only [ExprMsg.Plain] at hp
        obtain ⟨x, h1, h2⟩ := exprs_again (w :: ws) a hp ha
        cases x with
        | nil =>
          simp only [Expr.fromProtoList] at h2
          cases h2
          simp only [Expr.fromProtoList, Res.bind_eq_ok] at ha
          obtain ⟨_, _, _, _, ha⟩ := ha
          cases ha
        | cons y ys => exact ⟨.listE n v (y :: ys), by simp [Expr.toProto, h1], by simp only [Expr.fromProto, h2]; rfl⟩
  | .dynParam ty ref, e, hp, h => by
      simp only [Expr.fromProto, Res.bind_eq_ok] at h
      obtain ⟨t, ht, h⟩ := h
      cases h
      simp only [ExprMsg.Plain] at hp
      obtain ⟨y, h3, h4⟩ := ty_again ty t hp ht
      exact ⟨.dynParam y ref, by simp [Expr.toProto, h3], by simp [Expr.fromProto, h4]⟩
  | .scalarSubquery r, e, hp, h => by
      simp only [Expr.fromProto, Res.bind_eq_ok] at h
      obtain ⟨t, ht, h⟩ := h
      cases h
      simp only [ExprMsg.Plain] at hp
      obtain ⟨y, h3, h4⟩ := hp t ht
      exact ⟨.scalarSubquery y, by simp [Expr.toProto, h3], by simp [Expr.fromProto, h4]⟩
  | .inPredicate ns r, e, hp, h => by
      simp only [Expr.fromProto, Res.bind_eq_ok] at h
      obtain ⟨a, ha, t, ht, h⟩ := h
      cases h
      simp only [ExprMsg.Plain] at hp
      obtain ⟨x, h1, h2⟩ := exprs_again ns a hp.1 ha
      obtain ⟨y, h3, h4⟩ := hp.2 t ht
      exact ⟨.inPredicate x y, by simp [Expr.toProto, h1, h3], by simp [Expr.fromProto, h2, h4]⟩
  | .setPredicate op r, e, hp, h => by
      simp only [Expr.fromProto, Res.bind_eq_ok] at h
      obtain ⟨t, ht, h⟩ := h
      cases h
      simp only [ExprMsg.Plain] at hp
      obtain ⟨y, h3, h4⟩ := hp t ht
      exact ⟨.setPredicate op y, by simp [Expr.toProto, h3], by simp [Expr.fromProto, h4]⟩
  | .setComparison red cmp l r, e, hp, h => by
      simp only [Expr.fromProto, Res.bind_eq_ok] at h
      obtain ⟨a, ha, t, ht, h⟩ := h
      cases h
      simp only [ExprMsg.Plain] at hp
      obtain ⟨x, h1, h2⟩ := expr_again l a hp.1 ha
      obtain ⟨y, h3, h4⟩ := hp.2 t ht
      exact ⟨.setComparison red cmp x y, by simp [Expr.toProto, h1, h3], by simp [Expr.fromProto, h2, h4]⟩
  | .lambda params body, e, hp, h => by
      match params with
      | none => simp [Expr.fromProto] at h
      | some (n, v, ps) =>
        simp only [Expr.fromProto] at h
        split at h
        · simp at h
        · simp only [Res.bind_eq_ok] at h
          obtain ⟨ts, hts, h⟩ := h
          split at h
          · simp at h
          · rename_i hn
            simp only [Res.bind_eq_ok] at h
            obtain ⟨a, ha, h⟩ := h
            cases h
            simp only [ExprMsg.Plain] at hp
            obtain ⟨x, h1, h2⟩ := expr_again body a hp.2 ha
            obtain ⟨y, h3, h4⟩ := tys_again ps ts (hp.1 n v ps rfl) hts
            exact ⟨.lambda (some (n, v, y)) x, by simp [Expr.toProto, h1, h3],
              by simp [Expr.fromProto, h2, h4, again_not_nil h2, hn]⟩
theorem exprs_again : ∀ (ms : List ExprMsg) (es : List Expr), ExprMsg.PlainList reg ms →
    Expr.fromProtoList reg base ms = .ok es → Again (Expr.toProtoList reg) (Expr.fromProtoList reg base) es
  | [], es, _, h => by simp only [Expr.fromProtoList] at h; cases h; exact ⟨[], by again_nil, by again_nil⟩
  | m :: ms, es, hp, h => by
      simp only [Expr.fromProtoList, Res.bind_eq_ok] at h
      obtain ⟨a, ha, b, hb, h⟩ := h
      cases h
      simp only [ExprMsg.PlainList] at hp
      obtain ⟨x, h1, h2⟩ := expr_again m a hp.1 ha
      obtain ⟨y, h3, h4⟩ := exprs_again ms b hp.2 hb
      exact ⟨x :: y, by simp [Expr.toProtoList, h1, h3], by simp [Expr.fromProtoList, h2, h4]⟩
theorem pairs_again : ∀ (ms : List PairMsg) (es : List EPair), PairMsg.PlainList reg ms →
    EPair.fromProtoList reg base ms = .ok es → Again (EPair.toProtoList reg) (EPair.fromProtoList reg base) es
  | [], es, _, h => by simp only [EPair.fromProtoList] at h; cases h; exact ⟨[], by again_nil, by again_nil⟩
  | .mk k v :: ms, es, hp, h => by
      simp only [EPair.fromProtoList, Res.bind_eq_ok] at h
      obtain ⟨a, ha, d, hd, b, hb, h⟩ := h
      cases h
      simp only [PairMsg.PlainList] at hp
      obtain ⟨x, h1, h2⟩ := expr_again k a hp.1 ha
      obtain ⟨z, h5, h6⟩ := expr_again v d hp.2.1 hd
      obtain ⟨y, h3, h4⟩ := pairs_again ms b hp.2.2 hb
      exact ⟨.mk x z :: y, by simp [EPair.toProtoList, h1, h3, h5], by simp [EPair.fromProtoList, h2, h4, h6]⟩
theorem cases_again : ∀ (ms : List CaseMsg) (es : List ECase), CaseMsg.PlainList reg ms →
    ECase.fromProtoList reg base ms = .ok es → Again (ECase.toProtoList reg) (ECase.fromProtoList reg base) es
  | [], es, _, h => by simp only [ECase.fromProtoList] at h; cases h; exact ⟨[], by again_nil, by again_nil⟩
  | .mk k v :: ms, es, hp, h => by
      simp only [ECase.fromProtoList, Res.bind_eq_ok] at h
      obtain ⟨a, ha, d, hd, b, hb, h⟩ := h
      cases h
      simp only [CaseMsg.PlainList] at hp
      obtain ⟨x, h1, h2⟩ := lit_again k a hp.1 ha
      obtain ⟨z, h5, h6⟩ := expr_again v d hp.2.1 hd
      obtain ⟨y, h3, h4⟩ := cases_again ms b hp.2.2 hb
      exact ⟨.mk x z :: y, by simp [ECase.toProtoList, h1, h3, h5], by simp [ECase.fromProtoList, h2, h4, h6]⟩
theorem rows_again : ∀ (ms : List RowMsg) (es : List ERow), RowMsg.PlainList reg ms →
    ERow.fromProtoList reg base ms = .ok es → Again (ERow.toProtoList reg) (ERow.fromProtoList reg base) es
  | [], es, _, h => by simp only [ERow.fromProtoList] at h; cases h; exact ⟨[], by again_nil, by again_nil⟩
  | .mk r :: ms, es, hp, h => by
      simp only [ERow.fromProtoList, Res.bind_eq_ok] at h
      obtain ⟨a, ha, b, hb, h⟩ := h
      cases h
      simp only [RowMsg.PlainList] at hp
      obtain ⟨x, h1, h2⟩ := exprs_again r a hp.1 ha
      obtain ⟨y, h3, h4⟩ := rows_again ms b hp.2 hb
      exact ⟨.mk x :: y, by simp [ERow.toProtoList, h1, h3], by simp [ERow.fromProtoList, h2, h4]⟩
theorem root_again : ∀ (m : RootMsg) (r : ERoot), RootMsg.Plain reg m → ERoot.fromProto reg base m = .ok r →
    Again (ERoot.toProto reg) (ERoot.fromProto reg base) r
  | .unset, r, _, h => by simp only [ERoot.fromProto] at h; cases h; exact ⟨.rootReference, by again_nil, by again_nil⟩
  | .rootReference, r, _, h => by simp only [ERoot.fromProto] at h; cases h; exact ⟨.rootReference, by again_nil, by again_nil⟩
  | .outer n, r, _, h => by simp only [ERoot.fromProto] at h; cases h; exact ⟨.outer n, by again_nil, by again_nil⟩
  | .lambdaParam n, r, _, h => by simp only [ERoot.fromProto] at h; cases h; exact ⟨.lambdaParam n, by again_nil, by again_nil⟩
  | .expr m, r, hp, h => by
      simp only [ERoot.fromProto, Res.bind_eq_ok] at h
      obtain ⟨a, ha, h⟩ := h
      cases h
      simp only [RootMsg.Plain] at hp
      obtain ⟨x, h1, h2⟩ := expr_again m a hp ha
      refine ⟨.expr x, ?_, by simp [ERoot.fromProto, h2]⟩
      cases a with
      | nil => simp [Expr.toProto] at h1
      | _ => simp [ERoot.toProto, h1]
theorem args_again : ∀ (ms : List ArgMsg) (es : List EArg), ArgMsg.PlainList reg ms →
    EArg.fromProtoList reg base ms = .ok es → Again (EArg.toProtoList reg) (EArg.fromProtoList reg base) es
  | [], es, _, h => by simp only [EArg.fromProtoList] at h; cases h; exact ⟨[], by again_nil, by again_nil⟩
  | m :: ms, es, hp, h => by
      simp only [EArg.fromProtoList, Res.bind_eq_ok] at h
      obtain ⟨a, ha, b, hb, h⟩ := h
      cases h
      simp only [ArgMsg.PlainList] at hp
      obtain ⟨x, h1, h2⟩ := arg_again m a hp.1 ha
      obtain ⟨y, h3, h4⟩ := args_again ms b hp.2 hb
      exact ⟨x :: y, by simp [EArg.toProtoList, h1, h3], by simp [EArg.fromProtoList, h2, h4]⟩
theorem arg_again : ∀ (m : ArgMsg) (e : EArg), ArgMsg.Plain reg m →
    EArg.fromProto reg base m = .ok e → Again (EArg.toProto reg) (EArg.fromProto reg base) e
  | .unset, e, _, h => by simp [EArg.fromProto] at h
  | .enum s, e, _, h => by simp only [EArg.fromProto] at h; cases h; exact ⟨.enum s, by again_nil, by again_nil⟩
  | .type t, e, hp, h => by
      simp only [EArg.fromProto, Res.bind_eq_ok] at h
      obtain ⟨a, ha, h⟩ := h
      cases h
      simp only [ArgMsg.Plain] at hp
      obtain ⟨x, h1, h2⟩ := tyArg_again t a hp ha
      exact ⟨.type x, by simp [EArg.toProto, h1], by simp [EArg.fromProto, h2]⟩
  | .value m, e, hp, h => by
      simp only [EArg.fromProto, Res.bind_eq_ok] at h
      obtain ⟨a, ha, h⟩ := h
      cases h
      simp only [ArgMsg.Plain] at hp
      obtain ⟨x, h1, h2⟩ := expr_again m a hp ha
      rw [ofExpr_sent h1]
      exact ⟨.value x, by simp [EArg.toProto, h1], by simp [EArg.fromProto, h2, ofExpr_sent h1]⟩
theorem sorts_again : ∀ (ms : List SortMsg) (es : List ESort), SortMsg.PlainList reg ms →
    ESort.fromProtoList reg base ms = .ok es → Again (ESort.toProtoList reg) (ESort.fromProtoList reg base) es
  | [], es, _, h => by simp only [ESort.fromProtoList] at h; cases h; exact ⟨[], by again_nil, by again_nil⟩
  | .mk m k :: ms, es, hp, h => by
      simp only [ESort.fromProtoList, Res.bind_eq_ok] at h
      obtain ⟨a, ha, k', hk, b, hb, h⟩ := h
      cases h
      simp only [SortMsg.PlainList] at hp
      obtain ⟨x, h1, h2⟩ := expr_again m a hp.1 ha
      obtain ⟨y, h3, h4⟩ := sorts_again ms b hp.2 hb
      exact ⟨.mk x k'.toMsg :: y, by simp [ESort.toProtoList, h1, h3],
        by simp [ESort.fromProtoList, h2, h4, sortKind_again hk]⟩
end

end

end Verif
