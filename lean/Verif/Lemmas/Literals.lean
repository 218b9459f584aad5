import Verif.Spec.Literals
import Verif.Lemmas.Types
/-! # Helper lemmas about literals -/

namespace Verif

theorem getNullability_stated {n : Nullability} (h : Stated n) :
    getNullability (n == NullabilityNullable) = n := by
  rcases h with h | h <;> subst h <;> rfl

theorem protoToTimePrecision_valid {p : Int32} (h : ValidPrecision p) :
    protoToTimePrecision p = .ok p := by
  have := precisionOrPanic_valid h
  unfold precisionOrPanic at this
  unfold protoToTimePrecision at *
  by_cases hp : p < 0 ∨ p > 9 <;> simp_all

theorem int32Len_eq {s : List UInt8} {len : Int32} (h : len.toInt = s.length) :
    int32Len s = len := by
  unfold int32Len
  have h2 : Int32.ofInt (len.toInt) = len := Int32.ofInt_toInt len
  rw [h] at h2
  rw [← h2]; rfl

theorem getType_erase (l : Lit) :
    l.erase.getType = (l.getType >>= fun t => .ok t.erase) := by
  cases l <;> simp [Lit.erase, Lit.getType, Ty.erase]

theorem getType_of_erase {l l' : Lit} {t : Ty} (h : l'.erase = l.erase)
    (ht : l.getType = .ok t) : ∃ t', l'.getType = .ok t' ∧ t'.erase = t.erase := by
  have h1 := getType_erase l
  have h2 := getType_erase l'
  rw [h, h1, ht] at h2
  simp only [Res.ok_bind] at h2
  cases h3 : l'.getType with
  | ok t' => rw [h3] at h2; simp at h2; exact ⟨t', rfl, h2.symm⟩
  | err => rw [h3] at h2; simp at h2
  | panic => rw [h3] at h2; simp at h2

theorem getTypes_of_erase : ∀ (ls ls' : List Lit) (us : List Ty),
    Lit.eraseList ls' = Lit.eraseList ls → ls.map Lit.getType = us.map Res.ok →
    ∃ us', Lit.getTypes ls' = .ok us' ∧ Ty.eraseList us' = Ty.eraseList us
  | [], [], us, _, h => by
    cases us <;> simp at h
    exact ⟨[], rfl, rfl⟩
  | [], _ :: _, _, h, _ => by simp [Lit.eraseList] at h
  | _ :: _, [], _, h, _ => by simp [Lit.eraseList] at h
  | l :: ls, l' :: ls', [], _, h => by simp at h
  | l :: ls, l' :: ls', u :: us, h, ht => by
    simp only [Lit.eraseList, List.cons.injEq, List.map_cons] at h ht
    obtain ⟨u', a1, a2⟩ := getType_of_erase h.1 ht.1
    obtain ⟨us', b1, b2⟩ := getTypes_of_erase ls ls' us h.2 ht.2
    exact ⟨u' :: us', by simp [Lit.getTypes, a1, b1], by simp [Ty.eraseList, a2, b2]⟩

theorem toInt32_toUInt32 (x : Int32) : x.toUInt32.toInt32 = x := by
  cases x; rfl

theorem literalsToProto_length : ∀ (ls : List Lit) (ms : List PLit),
    literalsToProto ls = .ok ms → ms.length = ls.length
  | [], ms, h => by cases h; rfl
  | l :: ls, ms, h => by
    simp only [literalsToProto, Res.bind_eq_ok] at h
    obtain ⟨m, _, ms', h2, h3⟩ := h
    cases h3
    simp [literalsToProto_length ls ms' h2]

theorem prim_roundtrip {v : PVal} {t : Ty} (hf : v.Fits t) :
    ∃ k, primLitKind v = .ok k ∧ ∃ n w, t.nullability = n ∧ t.variation = w ∧ Stated n ∧
      literalKindFromProto n w k = .ok (.prim v t) := by
  unfold PVal.Fits at hf
  split at hf <;> first | exact hf.elim | skip
  all_goals
    refine ⟨_, rfl, _, _, rfl, rfl, ?_, ?_⟩
  all_goals first
    | exact hf
    | exact hf.1
    | (simp [literalKindFromProto, Ty.nullability, Ty.variation]; done)
    | simp [literalKindFromProto, Ty.nullability, Ty.variation, int32Len_eq hf.2]

theorem bytes_roundtrip {k : BKind} {b : List UInt8} {t : Ty} (hf : k.Fits b t) :
    Stated t.nullability ∧
      literalKindFromProto t.nullability t.variation (bytesLitKind k b) = .ok (.bytes k b t) := by
  unfold BKind.Fits at hf
  split at hf <;> first | exact hf.elim | skip
  all_goals
    refine ⟨?_, ?_⟩
  all_goals first
    | exact hf
    | exact hf.1
    | (simp [bytesLitKind, literalKindFromProto, Ty.nullability, Ty.variation]; done)
    | simp [bytesLitKind, literalKindFromProto, Ty.nullability, Ty.variation, int32Len_eq hf.2]

theorem proto_roundtrip {v : ProtoVal} {t : Ty} {k : PLitKind} (hf : v.Fits t)
    (hk : protoLitKind t v = .ok k) :
    Stated t.nullability ∧ ∃ t', literalKindFromProto t.nullability t.variation k =
      .ok (.proto v t') ∧ t'.erase = t.erase := by
  unfold ProtoVal.Fits at hf
  split at hf <;> first | exact hf.elim | skip
  · next u n w ref ps =>
    simp only [protoLitKind, Res.bind_eq_ok] at hk
    obtain ⟨ms, h1, h2⟩ := hk
    obtain ⟨ps', e1, e2, e3⟩ := params_from_to ps ms hf.2 h1
    cases u with
    | unset => cases h2
    | value url b =>
      cases h2
      exact ⟨hf.1, .udt n w ref ps', by simp [literalKindFromProto, e1, Ty.nullability,
        Ty.variation], by simp [Ty.erase, e2, e3]⟩
    | struct fs =>
      cases h2
      exact ⟨hf.1, .udt n w ref ps', by simp [literalKindFromProto, e1, Ty.nullability,
        Ty.variation], by simp [Ty.erase, e2, e3]⟩
  · next d n w p =>
    obtain ⟨h1, h2, h3⟩ := hf
    cases hk
    refine ⟨h1, _, ?_, rfl⟩
    rcases h3 with h3 | ⟨h3, h4⟩
    · simp [literalKindFromProto, intervalDayFromProto, h3, protoToTimePrecision_valid h2,
        Ty.nullability, Ty.variation]
    · subst h4
      simp only [literalKindFromProto, intervalDayFromProto, Ty.nullability, Ty.variation]
  · cases hk
    exact ⟨hf, _, by simp [literalKindFromProto, Ty.nullability, Ty.variation], rfl⟩
  · cases hk
    exact ⟨hf, _, by simp [literalKindFromProto, Ty.nullability, Ty.variation], rfl⟩
  · next i k' n w p =>
    obtain ⟨h0, h1, h2, h3, h4⟩ := hf
    subst h3
    have hi : ¬ i < 0 := by
      rw [Int64.lt_iff_toInt_lt]
      simpa using h4
    cases k' <;> first | exact absurd rfl h0 | skip
    all_goals
      cases hk
      exact ⟨h1, _, by
        simp [literalKindFromProto, precisionFromProto, protoToTimePrecision_valid h2, hi,
          Ty.nullability, Ty.variation], rfl⟩

theorem compound_roundtrip {y m d s : Int32} {ss : Int64} {p : Int32} {n : Nullability}
    (hp : ValidPrecision p) (hz : d = 0 → s = 0 → ss = 0 → p = 0) (w : UInt32) :
    literalKindFromProto n w (compoundLitKind y m d s ss p) =
      .ok (.intervalCompound y m d s ss p n) := by
  unfold compoundLitKind
  by_cases h1 : y ≠ 0 ∨ m ≠ 0 <;> by_cases h2 : d ≠ 0 ∨ s ≠ 0 ∨ ss ≠ 0 <;>
    simp only [h1, h2, if_true, if_false]
  · simp [literalKindFromProto, intervalCompoundFromProto, compoundDayPart,
      protoToTimePrecision_valid hp]
  · simp only [not_or, Decidable.not_not] at h2
    simp [literalKindFromProto, intervalCompoundFromProto, h2, hz h2.1 h2.2.1 h2.2.2]
  · simp only [not_or, Decidable.not_not] at h1
    simp [literalKindFromProto, intervalCompoundFromProto, compoundDayPart,
      protoToTimePrecision_valid hp, h1]
  · simp only [not_or, Decidable.not_not] at h1 h2
    simp [literalKindFromProto, intervalCompoundFromProto, h1, h2, hz h2.1 h2.2.1 h2.2.2]

mutual
theorem lit_roundtrip : ∀ (l : Lit) (m : PLit), l.Faithful → literalToProto l = .ok m →
    ∃ l', literalFromProto m = .ok l' ∧ l'.erase = l.erase
  | .nil, m, hf, _ => by simp [Lit.Faithful] at hf
  | .null t, m, hf, h => by
    simp only [Lit.Faithful] at hf
    simp only [literalToProto, Res.bind_eq_ok] at h
    obtain ⟨mt, h1, h2⟩ := h
    cases h2
    obtain ⟨t', e1, e2, e3⟩ := type_from_to t mt hf h1
    exact ⟨.null t', by simp [literalFromProto, literalKindFromProto, e1],
      by simp [Lit.erase, e2, e3]⟩
  | .prim v t, m, hf, h => by
    simp only [Lit.Faithful] at hf
    obtain ⟨k, h1, n, w, h2, h3, h4, h5⟩ := prim_roundtrip hf
    simp only [literalToProto, h1, Res.ok_bind] at h
    cases h
    subst h2 h3
    exact ⟨_, by simp only [literalFromProto, litHeader, getNullability_stated h4]; exact h5, rfl⟩
  | .bytes k b t, m, hf, h => by
    simp only [Lit.Faithful] at hf
    obtain ⟨h1, h2⟩ := bytes_roundtrip hf
    cases h
    exact ⟨_, by simp only [literalFromProto, litHeader, getNullability_stated h1]; exact h2, rfl⟩
  | .struct fs t, m, hf, h => by
    simp only [Lit.Faithful] at hf
    obtain ⟨hfs, n, v, ts, us, rfl, hn, hu, ht⟩ := hf
    simp only [literalToProto, Res.bind_eq_ok] at h
    obtain ⟨ms, h1, h2⟩ := h
    cases h2
    obtain ⟨ls', e1, e2⟩ := lits_roundtrip fs ms hfs h1
    obtain ⟨us', f1, f2⟩ := getTypes_of_erase fs ls' us e2 hu
    exact ⟨.struct ls' (.struct n v us'),
      by simp [literalFromProto, litHeader, literalKindFromProto, getNullability_stated hn, e1, f1,
        Ty.nullability, Ty.variation],
      by simp [Lit.erase, Ty.erase, e2, f2, ht]⟩
  | .list [] t, m, hf, h => by
    simp only [Lit.Faithful] at hf
    obtain ⟨-, n, v, e, rfl, hn, he⟩ := hf
    simp only [literalToProto, literalsToProto, Res.ok_bind, Res.bind_eq_ok, typeToProto] at h
    obtain ⟨mt, ⟨me, h1, h2⟩, h3⟩ := h
    cases h2; cases h3
    obtain ⟨t', e1, e2, e3⟩ := type_from_to e me he h1
    exact ⟨.list [] (.list n v t'),
      by simp [literalFromProto, litHeader, literalKindFromProto, getNullability_stated hn, e1,
        Ty.nullability, Ty.variation, PTy.getList],
      by simp [Lit.erase, Ty.erase, e2, e3]⟩
  | .list (x :: xs) t, m, hf, h => by
    simp only [Lit.Faithful] at hf
    obtain ⟨hfs, n, v, e, rfl, hn, u, hu, he⟩ := hf
    simp only [literalToProto, Res.bind_eq_ok] at h
    obtain ⟨ms, h1, h2⟩ := h
    obtain ⟨ls', e1, e2⟩ := lits_roundtrip (x :: xs) ms hfs h1
    have hlen := literalsToProto_length _ _ h1
    cases ms with
    | nil => simp at hlen
    | cons m0 ms =>
      cases h2
      cases ls' with
      | nil => simp [Lit.eraseList] at e2
      | cons l0 ls' =>
        simp only [Lit.eraseList, List.cons.injEq] at e2
        obtain ⟨u', f1, f2⟩ := getType_of_erase e2.1 hu
        refine ⟨.list (l0 :: ls') (.list n v u'),
          by simp [literalFromProto, litHeader, literalKindFromProto, getNullability_stated hn, e1,
            f1, Ty.nullability, Ty.variation], ?_⟩
        have : e.erase = u.erase := he
        simp [Lit.erase, Lit.eraseList, Ty.erase, e2, f2, this]
  | .map [] t, m, hf, h => by
    simp only [Lit.Faithful] at hf
    obtain ⟨-, n, v, k, e, rfl, hn, hk, he⟩ := hf
    simp only [literalToProto, Res.bind_eq_ok, typeToProto] at h
    obtain ⟨mt, ⟨mk, h0, me, h1, h2⟩, h3⟩ := h
    cases h2; cases h3
    obtain ⟨k', d1, d2, d3⟩ := type_from_to k mk hk h0
    obtain ⟨t', e1, e2, e3⟩ := type_from_to e me he h1
    exact ⟨.map [] (.map n v k' t'),
      by simp [literalFromProto, litHeader, literalKindFromProto, getNullability_stated hn, d1, e1,
        Ty.nullability, Ty.variation, PTy.getMap],
      by simp [Lit.erase, Ty.erase, d2, d3, e2, e3]⟩
  | .map (.mk x y :: xs) t, m, hf, h => by
    simp only [Lit.Faithful] at hf
    obtain ⟨hfs, n, v, k, e, rfl, hn, u, w, hu, hw, hk, he⟩ := hf
    simp only [literalToProto, Res.bind_eq_ok] at h
    obtain ⟨ms, h1, h2⟩ := h
    obtain ⟨ls', e1, e2⟩ := kvs_roundtrip (.mk x y :: xs) ms hfs h1
    cases h2
    cases ls' with
    | nil => simp [KeyValue.eraseList] at e2
    | cons l0 ls' =>
      obtain ⟨x', y'⟩ := l0
      simp only [KeyValue.eraseList, List.cons.injEq, KeyValue.mk.injEq] at e2
      obtain ⟨u', f1, f2⟩ := getType_of_erase e2.1.1 hu
      obtain ⟨w', g1, g2⟩ := getType_of_erase e2.1.2 hw
      refine ⟨.map (.mk x' y' :: ls') (.map n v u' w'),
        by simp [literalFromProto, litHeader, literalKindFromProto, getNullability_stated hn, e1,
          f1, g1, Ty.nullability, Ty.variation], ?_⟩
      have h3 : e.erase = w.erase := he
      have h4 : k.erase = u.erase := hk
      simp [Lit.erase, KeyValue.eraseList, Ty.erase, e2, f2, g2, h3, h4]
  | .proto v t, m, hf, h => by
    simp only [Lit.Faithful] at hf
    simp only [literalToProto, Res.bind_eq_ok] at h
    obtain ⟨k, h1, h2⟩ := h
    cases h2
    obtain ⟨h3, t', h4, h5⟩ := proto_roundtrip hf h1
    exact ⟨_, by simp only [literalFromProto, litHeader, getNullability_stated h3]; exact h4,
      by simp [Lit.erase, h5]⟩
  | .intervalYearToMonth y mo n, m, hf, h => by
    simp only [Lit.Faithful] at hf
    cases h
    exact ⟨.intervalYearToMonth y mo n, by
      simp [literalFromProto, litHeader, literalKindFromProto, Ty.nullability,
        getNullability_stated hf], rfl⟩
  | .intervalCompound y mo d s ss p n, m, hf, h => by
    simp only [Lit.Faithful] at hf
    cases h
    exact ⟨.intervalCompound y mo d s ss p n, by
      simp only [literalFromProto, litHeader, Ty.nullability,
        getNullability_stated hf.1, compound_roundtrip hf.2.1 hf.2.2], rfl⟩
theorem lits_roundtrip : ∀ (ls : List Lit) (ms : List PLit), Lit.FaithfulList ls →
    literalsToProto ls = .ok ms →
    ∃ ls', literalsFromProto ms = .ok ls' ∧ Lit.eraseList ls' = Lit.eraseList ls
  | [], ms, _, h => by cases h; exact ⟨[], rfl, rfl⟩
  | l :: ls, ms, hf, h => by
    simp only [Lit.FaithfulList] at hf
    simp only [literalsToProto, Res.bind_eq_ok] at h
    obtain ⟨m, h1, ms', h2, h3⟩ := h
    cases h3
    obtain ⟨l', a1, a2⟩ := lit_roundtrip l m hf.1 h1
    obtain ⟨ls', b1, b2⟩ := lits_roundtrip ls ms' hf.2 h2
    exact ⟨l' :: ls', by simp [literalsFromProto, a1, b1], by simp [Lit.eraseList, a2, b2]⟩
theorem kvs_roundtrip : ∀ (ls : List KeyValue) (ms : List PKeyValue), KeyValue.FaithfulList ls →
    keyValuesToProto ls = .ok ms →
    ∃ ls', keyValuesFromProto ms = .ok ls' ∧ KeyValue.eraseList ls' = KeyValue.eraseList ls
  | [], ms, _, h => by cases h; exact ⟨[], rfl, rfl⟩
  | .mk k v :: ls, ms, hf, h => by
    simp only [KeyValue.FaithfulList] at hf
    simp only [keyValuesToProto, Res.bind_eq_ok] at h
    obtain ⟨mk, h1, mv, h2, ms', h3, h4⟩ := h
    cases h4
    obtain ⟨k', a1, a2⟩ := lit_roundtrip k mk hf.1 h1
    obtain ⟨v', c1, c2⟩ := lit_roundtrip v mv hf.2.1 h2
    obtain ⟨ls', b1, b2⟩ := kvs_roundtrip ls ms' hf.2.2 h3
    exact ⟨.mk k' v' :: ls', by simp [keyValuesFromProto, a1, b1, c1],
      by simp [KeyValue.eraseList, a2, b2, c2]⟩
end

end Verif
