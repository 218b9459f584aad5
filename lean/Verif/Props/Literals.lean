import Verif.Lemmas.Literals
/-!
# Properties of literals (C11, C12, C59)
-/

namespace Verif

/-! ## C11 -/

theorem hasTypeMismatchFrom_false (t : Ty) : ∀ (ls : List Lit),
    hasTypeMismatchFrom t ls = .ok false ↔
      ∃ ts : List Ty, ls.map Lit.getType = ts.map Res.ok ∧ ∀ u ∈ ts, t.equals u = .ok true
  | [] => by
    simp only [hasTypeMismatchFrom, true_iff]
    exact ⟨[], rfl, by simp⟩
  | l :: ls => by
    have ih := hasTypeMismatchFrom_false t ls
    cases hn : l.isNil with
    | true =>
      cases l <;> simp [Lit.isNil] at hn
      simp only [hasTypeMismatchFrom, Lit.isNil, if_true]
      constructor
      · intro h; cases h
      · rintro ⟨ts, h, -⟩
        cases ts <;> simp [Lit.getType] at h
    | false =>
      have hg : ∃ u, l.getType = .ok u := by cases l <;> simp [Lit.isNil] at hn <;> exact ⟨_, rfl⟩
      obtain ⟨u, hu⟩ := hg
      simp only [hasTypeMismatchFrom, hn, hu, Res.ok_bind, Bool.false_eq_true, if_false]
      constructor
      · intro h
        obtain ⟨b, h1, h2⟩ := Res.bind_eq_ok.1 h
        cases b with
        | false => simp at h2
        | true =>
          simp only [Bool.not_true, Bool.false_eq_true, if_false] at h2
          obtain ⟨ts, h3, h4⟩ := ih.1 h2
          refine ⟨u :: ts, by simp [hu, h3], ?_⟩
          intro w hw
          rcases List.mem_cons.1 hw with rfl | hw
          · exact h1
          · exact h4 w hw
      · rintro ⟨ts, h1, h2⟩
        cases ts with
        | nil => simp at h1
        | cons w ts =>
          simp only [List.map_cons, List.cons.injEq, hu, Res.ok.injEq] at h1
          obtain ⟨rfl, h1⟩ := h1
          rw [h2 u (by simp)]
          simp only [Res.ok_bind, Bool.not_true, Bool.false_eq_true, if_false]
          exact ih.2 ⟨ts, h1, fun w hw => h2 w (by simp [hw])⟩

theorem hasTypeMismatch_false (ls : List Lit) :
    hasTypeMismatch ls = .ok false ↔
      ∃ t ts, ls.map Lit.getType = (t :: ts).map Res.ok ∧ ∀ u ∈ ts, t.equals u = .ok true := by
  cases ls with
  | nil => simp [hasTypeMismatch]
  | cons l ls =>
    cases hn : l.isNil with
    | true =>
      cases l <;> simp [Lit.isNil] at hn
      simp [hasTypeMismatch, Lit.isNil, Lit.getType]
    | false =>
      have hg : ∃ u, l.getType = .ok u := by cases l <;> simp [Lit.isNil] at hn <;> exact ⟨_, rfl⟩
      obtain ⟨u, hu⟩ := hg
      simp only [hasTypeMismatch, hn, hu, Res.ok_bind, Bool.false_eq_true, if_false,
        hasTypeMismatchFrom_false, List.map_cons, List.cons.injEq, Res.ok.injEq]
      constructor
      · rintro ⟨ts, h1, h2⟩; exact ⟨u, ts, ⟨rfl, h1⟩, h2⟩
      · rintro ⟨t, ts, ⟨rfl, h1⟩, h2⟩; exact ⟨ts, h1, h2⟩

/-- **C11 (lists).** `NewList` succeeds exactly when the list is non-empty, has no nil element and
every element's type equals (by the `Equals` method) the first element's type; the result has the
given elements and the type "list of the first element's type", nullable as requested. -/
theorem C11_newList (es : List Lit) (nullable : Bool) (r : Lit) :
    newList es nullable = .ok r ↔
      ∃ t ts, es.map Lit.getType = (t :: ts).map Res.ok ∧ (∀ u ∈ ts, t.equals u = .ok true) ∧
        r = .list es (.list (if nullable then 1 else 2) 0 t) := by
  cases es with
  | nil => simp [newList]
  | cons e es =>
    simp only [newList, List.length_cons, Nat.add_eq_zero_iff, Nat.succ_ne_self, and_false,
      if_false]
    constructor
    · intro h
      obtain ⟨b, h1, h2⟩ := Res.bind_eq_ok.1 h
      cases b with
      | true => simp at h2
      | false =>
        obtain ⟨t, ts, h3, h4⟩ := (hasTypeMismatch_false _).1 h1
        refine ⟨t, ts, h3, h4, ?_⟩
        simp only [List.map_cons, List.cons.injEq] at h3
        simp only [Bool.false_eq_true, if_false, newLiteral, h3.1, Res.ok_bind,
          Res.ok.injEq] at h2
        rw [← h2]; cases nullable <;> rfl
    · rintro ⟨t, ts, h3, h4, rfl⟩
      rw [(hasTypeMismatch_false _).2 ⟨t, ts, h3, h4⟩]
      simp only [List.map_cons, List.cons.injEq] at h3
      simp only [newLiteral, h3.1, Res.ok_bind, Bool.false_eq_true, if_false, Res.ok.injEq]
      cases nullable <;> rfl

/-- **C11 (maps).** The same for `NewMap`, for the keys and for the values. -/
theorem C11_newMap (es : List KeyValue) (nullable : Bool) (r : Lit) :
    newMap es nullable = .ok r ↔
      ∃ k ks v vs,
        es.map (fun | .mk key _ => key.getType) = (k :: ks).map Res.ok ∧
        es.map (fun | .mk _ value => value.getType) = (v :: vs).map Res.ok ∧
        (∀ u ∈ ks, k.equals u = .ok true) ∧ (∀ u ∈ vs, v.equals u = .ok true) ∧
        r = .map es (.map (if nullable then 1 else 2) 0 k v) := by
  have hk : es.map (fun | KeyValue.mk key _ => key.getType) =
      (es.map KeyValue.key).map Lit.getType := by simp; intro a _; cases a; rfl
  have hv : es.map (fun | KeyValue.mk _ value => value.getType) =
      (es.map KeyValue.value).map Lit.getType := by simp; intro a _; cases a; rfl
  rw [hk, hv]
  cases es with
  | nil => simp [newMap]
  | cons e es =>
    obtain ⟨a, b⟩ := e
    simp only [newMap, List.length_cons, Nat.add_eq_zero_iff, Nat.succ_ne_self, and_false,
      if_false]
    constructor
    · intro h
      obtain ⟨b1, h1, h2⟩ := Res.bind_eq_ok.1 h
      cases b1 with
      | true => simp at h2
      | false =>
        simp only [Bool.false_eq_true, if_false] at h2
        obtain ⟨b2, h5, h6⟩ := Res.bind_eq_ok.1 h2
        cases b2 with
        | true => simp at h6
        | false =>
          obtain ⟨k, ks, h3, h4⟩ := (hasTypeMismatch_false _).1 h1
          obtain ⟨v, vs, h7, h8⟩ := (hasTypeMismatch_false _).1 h5
          refine ⟨k, ks, v, vs, h3, h7, h4, h8, ?_⟩
          simp only [List.map_cons, List.cons.injEq, KeyValue.key, KeyValue.value] at h3 h7
          simp only [Bool.false_eq_true, if_false, newLiteral, h3.1, h7.1, Res.ok_bind,
            Res.ok.injEq] at h6
          rw [← h6]; cases nullable <;> rfl
    · rintro ⟨k, ks, v, vs, h3, h7, h4, h8, rfl⟩
      rw [(hasTypeMismatch_false _).2 ⟨k, ks, h3, h4⟩]
      simp only [Bool.false_eq_true, if_false, Res.ok_bind]
      rw [(hasTypeMismatch_false _).2 ⟨v, vs, h7, h8⟩]
      simp only [List.map_cons, List.cons.injEq, KeyValue.key, KeyValue.value] at h3 h7
      simp only [newLiteral, h3.1, h7.1, Res.ok_bind, Bool.false_eq_true, if_false, Res.ok.injEq]
      cases nullable <;> rfl

/-- **C11 (empty lists and maps).** `NewEmptyListLiteral` and `NewEmptyMapLiteral` have no elements and the
type asked for. -/
theorem C11_empty (t k : Ty) (nullable : Bool) :
    newEmptyList t nullable = .list [] (.list (if nullable then 1 else 2) 0 t) ∧
    newEmptyMap k t nullable = .map [] (.map (if nullable then 1 else 2) 0 k t) ∧
    (newEmptyList t nullable).getType = .ok (.list (if nullable then 1 else 2) 0 t) ∧
    (newEmptyMap k t nullable).getType = .ok (.map (if nullable then 1 else 2) 0 k t) := by
  cases nullable <;> exact ⟨rfl, rfl, rfl, rfl⟩

/-- **C11 (homogeneity).** For plan types (no function-argument enum, no missing type parameter)
"equal" is real equality of types: `NewList` succeeds exactly on non-empty lists without nil
elements in which *any two* elements have the same type. -/
theorem C11_newList_homogeneous (es : List Lit) (nullable : Bool)
    (hp : ∀ e ∈ es, ∀ t, e.getType = .ok t → t.PlanType) :
    (∃ r, newList es nullable = .ok r) ↔
      es ≠ [] ∧ (∀ e ∈ es, e ≠ .nil) ∧
      ∀ a ∈ es, ∀ b ∈ es, ∀ t u, a.getType = .ok t → b.getType = .ok u → t.Same u := by
  simp only [C11_newList]
  constructor
  · rintro ⟨r, t, ts, h1, h2, -⟩
    have hall : ∀ a ∈ es, ∃ u, a.getType = .ok u ∧ u.erase = t.erase := by
      intro a ha
      have : a.getType ∈ es.map Lit.getType := List.mem_map_of_mem ha
      rw [h1] at this
      obtain ⟨u, hu, he⟩ := List.mem_map.1 this
      have htp : t.PlanType := by
        cases es with
        | nil => simp at h1
        | cons e es =>
          simp only [List.map_cons, List.cons.injEq] at h1
          exact hp e (by simp) t h1.1
      refine ⟨u, he.symm, ?_⟩
      rcases List.mem_cons.1 hu with rfl | hu
      · rfl
      · exact ((equals_true_iff htp).1 (h2 u hu)).symm
    refine ⟨?_, ?_, ?_⟩
    · rintro rfl; simp at h1
    · intro e he hn
      obtain ⟨u, hu, -⟩ := hall e he
      rw [hn] at hu; cases hu
    · intro a ha b hb t1 u1 ht hu
      obtain ⟨x, hx, ex⟩ := hall a ha
      obtain ⟨y, hy, ey⟩ := hall b hb
      rw [ht] at hx; rw [hu] at hy; cases hx; cases hy
      exact ex.trans ey.symm
  · rintro ⟨h1, h2, h3⟩
    cases es with
    | nil => exact absurd rfl h1
    | cons e es =>
      have hget : ∀ a : Lit, a ≠ .nil → ∃ u, a.getType = .ok u := by
        intro a ha; cases a <;> first | exact absurd rfl ha | exact ⟨_, rfl⟩
      obtain ⟨t, ht⟩ := hget e (h2 e (by simp))
      have : ∃ ts : List Ty, es.map Lit.getType = ts.map Res.ok := by
        clear h1 h3 hp ht
        induction es with
        | nil => exact ⟨[], rfl⟩
        | cons a as ih =>
          obtain ⟨ts, hts⟩ := ih (fun x hx => h2 x (by
            rcases List.mem_cons.1 hx with h | h <;> simp [h]))
          obtain ⟨u, hu⟩ := hget a (h2 a (by simp))
          exact ⟨u :: ts, by simp [hu, hts]⟩
      obtain ⟨ts, hts⟩ := this
      refine ⟨_, t, ts, by simp [ht, hts], ?_, rfl⟩
      intro u hu
      have : Res.ok u ∈ es.map Lit.getType := by rw [hts]; exact List.mem_map_of_mem hu
      obtain ⟨a, ha, hau⟩ := List.mem_map.1 this
      exact (equals_true_iff (hp e (by simp) t ht)).2
        (h3 e (by simp) a (by simp [ha]) t u ht hau)

/-- Two i32 literals make a list; an i32 and an i64 do not; nor does an empty list. -/
example : newList [.prim (.int32 1) (.prim .i32 2 0), .prim (.int32 2) (.prim .i32 2 0)] true
      = .ok (.list [.prim (.int32 1) (.prim .i32 2 0), .prim (.int32 2) (.prim .i32 2 0)]
          (.list 1 0 (.prim .i32 2 0))) ∧
    newList [.prim (.int32 1) (.prim .i32 2 0), .prim (.int64 2) (.prim .i64 2 0)] true = .err ∧
    newList [] false = .err := by
  refine ⟨?_, ?_, rfl⟩ <;>
    simp [newList, hasTypeMismatch, hasTypeMismatchFrom, Lit.isNil, Lit.getType, Ty.equals,
      newLiteral, getNullability]

/-! ## C12 -/

/-- The full property: whatever a literal is written as, reading it gives the same literal. -/
def C12_statement : Prop :=
  ∀ (l : Lit) (m : PLit), literalToProto l = .ok m →
    ∃ l', literalFromProto m = .ok l' ∧ l.Same l'

/-- **C12 is false of the code**: a precision timestamp before 1970 (a negative value) is written
but read back as nil. -/
theorem C12_negation : ¬ C12_statement := by
  intro h
  obtain ⟨l', h1, h2⟩ := h (.proto (.int64 (-1)) (.prec .precisionTimestamp 2 0 6)) _ rfl
  have : literalFromProto (litHeader (.prec .precisionTimestamp 2 0 6)
      (.precisionTimestamp 6 (-1))) = .ok .nil := rfl
  rw [this] at h1
  cases h1
  simp [Lit.Same, Lit.erase] at h2

/-- A second witness: a year-month interval built with `NewLiteral` is read back as a literal of a
different kind with a different type. -/
theorem C12_negation_interval_year : ∃ l m l',
    newLiteral (.intervalYearToMonth 1 2) false = .ok l ∧ literalToProto l = .ok m ∧
    literalFromProto m = .ok l' ∧ ¬ l.Same l' := by
  refine ⟨_, _, _, rfl, rfl, rfl, ?_⟩
  simp [Lit.Same, Lit.erase]

/-- A third witness: the variation reference of a precision timestamp is lost. -/
theorem C12_negation_variation : ∃ l m l',
    l = .proto (.int64 5) (.prec .precisionTimestamp 2 7 6) ∧ literalToProto l = .ok m ∧
    literalFromProto m = .ok l' ∧ l'.getType = .ok (.prec .precisionTimestamp 2 0 6) := by
  exact ⟨_, _, .proto (.int64 5) (.prec .precisionTimestamp 2 0 6), rfl, rfl, rfl, rfl⟩

/-- A fourth witness: the sub-second precision of a zero compound interval becomes 0. -/
theorem C12_negation_compound : ∃ m,
    literalToProto (.intervalCompound 1 0 0 0 0 9 2) = .ok m ∧
    literalFromProto m = .ok (.intervalCompound 1 0 0 0 0 0 2) := ⟨_, rfl, rfl⟩

/-- **C12 (partial).** A literal whose recorded type agrees with its value (`Lit.Faithful`: at
every depth) is read back with the same value, nullability, variation reference and type.
Missing: the lossy cases shown false above (negative precision times, variations of precision
times, year-month intervals held as `ProtoLiteral`, zero compound intervals with non-zero
precision, unspecified nullability, types contradicting the value). -/
theorem C12_literal_roundtrip_partial (l : Lit) (m : PLit) (hf : l.Faithful)
    (h : literalToProto l = .ok m) :
    ∃ l', literalFromProto m = .ok l' ∧ l.Same l' := by
  obtain ⟨l', h1, h2⟩ := lit_roundtrip l m hf h
  exact ⟨l', h1, h2.symm⟩

/-- A nested literal meeting the hypotheses of C12. -/
example : let l : Lit := (.struct
      [.list [.prim (.int8 (-3)) (.prim .i8 2 4), .null (.prim .i8 1 0)] (.list 1 5 (.prim .i8 2 4)),
       .map [.mk (.prim (.string [104, 105]) (.prim .string 2 0))
          (.proto (.bytes [1]) (.decimal 1 0 2 10))]
          (.map 2 0 (.prim .string 2 0) (.decimal 1 0 2 10)),
       .list [] (.list 2 0 (.prim .fp64 1 0)),
       .intervalCompound 1 2 3 4 5 6 1]
      (.struct 2 9 [.list 1 5 (.prim .i8 2 4), .map 2 0 (.prim .string 2 0) (.decimal 1 0 2 10),
        .list 2 0 (.prim .fp64 1 0), .intervalCompound false 1 0 6]) : Lit)
    l.Faithful ∧ ∃ m, literalToProto l = .ok m := by
  refine ⟨?_, _, rfl⟩
  simp [Lit.Faithful, Lit.FaithfulList, KeyValue.FaithfulList, PVal.Fits, ProtoVal.Fits, Stated,
    Ty.PrecisionsOk, ValidPrecision, Lit.getType, Ty.Same]
  exact ⟨⟨⟨1, 5, _, ⟨rfl, rfl, rfl⟩, Or.inl rfl, rfl⟩,
    ⟨2, 0, _, _, ⟨rfl, rfl, rfl, rfl⟩, Or.inr rfl, rfl, rfl⟩,
    ⟨2, 0, _, ⟨rfl, rfl, rfl⟩, Or.inr rfl, trivial⟩⟩,
    2, 9, _, ⟨rfl, rfl, rfl⟩, Or.inr rfl, [_, _, _, _], rfl, rfl⟩

/-- **C12 (constructors).** Every literal built by `NewLiteral` from a value other than the lossy
kinds listed (and from faithful elements, for nested values) is faithful, hence survives the round
trip. -/
theorem C12_newLiteral_faithful_partial (a : LitArg) (nullable : Bool) (l : Lit)
    (ha : match a with
      | .prim (.fixedChar s) => s.length < 2 ^ 31
      | .bytes .fixedBinary b => b.length < 2 ^ 31
      | .struct fs => Lit.FaithfulList fs
      | .list vs => Lit.FaithfulList vs
      | .map kvs => KeyValue.FaithfulList kvs
      | .intervalYearToMonth _ _ => False
      | .intervalDayToSecond d => ∃ p, d.mode = .precision p ∧ ValidPrecision p
      | .userDefined _ ps _ => ∃ ts, paramsFromProto ps = .ok ts ∧ TParam.PrecisionsOkList ts
      | .precisionTime p v => ValidPrecision p ∧ 0 ≤ v.toInt
      | .precisionTimestamp p v => ValidPrecision p ∧ 0 ≤ v.toInt
      | .precisionTimestampTz p v => ValidPrecision p ∧ 0 ≤ v.toInt
      | _ => True)
    (h : newLiteral a nullable = .ok l) : l.Faithful := by
  have hs : Stated (getNullability nullable) := by cases nullable <;> simp [getNullability, Stated]
  have hlen : ∀ s : List UInt8, s.length < 2 ^ 31 → (int32Len s).toInt = s.length := by
    intro s hs
    unfold int32Len
    rw [Int32.toInt_ofNat_of_lt (by omega)]
  cases a with
  | prim v =>
    cases v <;> simp only [newLiteral, newPrimLiteral, Res.ok.injEq, reduceCtorEq] at h <;>
      (subst h; simp only [Lit.Faithful, PVal.Fits]) <;> first | exact hs | exact ⟨hs, hlen _ ha⟩
  | bytes k b =>
    cases k <;> simp only [newLiteral, Res.ok.injEq] at h <;>
      (subst h; simp only [Lit.Faithful, BKind.Fits]) <;> first | exact hs | exact ⟨hs, hlen _ ha⟩
  | struct fs =>
    simp only [newLiteral, Res.bind_eq_ok] at h
    obtain ⟨ts, h1, h2⟩ := h
    cases h2
    simp only [Lit.Faithful]
    refine ⟨ha, _, _, ts, ts, rfl, hs, ?_, rfl⟩
    clear ha
    induction fs generalizing ts with
    | nil => cases h1; rfl
    | cons f fs ih =>
      simp only [Lit.getTypes, Res.bind_eq_ok] at h1
      obtain ⟨t, g1, us, g2, g3⟩ := h1
      cases g3
      simp [g1, ih us g2]
  | list vs =>
    cases vs with
    | nil => simp [newLiteral] at h
    | cons x xs =>
      simp only [newLiteral, Res.bind_eq_ok] at h
      obtain ⟨t, h1, h2⟩ := h
      cases h2
      simp only [Lit.Faithful]
      exact ⟨ha, _, _, _, rfl, hs, t, h1, rfl⟩
  | map kvs =>
    cases kvs with
    | nil => simp [newLiteral] at h
    | cons x xs =>
      obtain ⟨k, e⟩ := x
      simp only [newLiteral, Res.bind_eq_ok] at h
      obtain ⟨tk, h1, te, h2, h3⟩ := h
      cases h3
      simp only [Lit.Faithful]
      exact ⟨ha, _, _, _, _, rfl, hs, tk, te, h1, h2, rfl, rfl⟩
  | intervalYearToMonth y m => exact ha.elim
  | intervalDayToSecond d =>
    obtain ⟨p, h1, h2⟩ := ha
    cases h
    simp only [Lit.Faithful, ProtoVal.Fits, DaySecond.getPrecision, h1]
    exact ⟨hs, h2, Or.inl trivial⟩
  | varChar s len => cases h; exact hs
  | decimal b p s =>
    simp only [newLiteral] at h
    split at h
    · cases h
    · cases h; exact hs
  | userDefined ref ps val =>
    obtain ⟨ts, h1, h2⟩ := ha
    simp only [newLiteral, h1, Res.ok_bind] at h
    cases h
    exact ⟨hs, h2⟩
  | precisionTime p v => cases h; exact ⟨by decide, hs, ha.1, rfl, ha.2⟩
  | precisionTimestamp p v => cases h; exact ⟨by decide, hs, ha.1, rfl, ha.2⟩
  | precisionTimestampTz p v => cases h; exact ⟨by decide, hs, ha.1, rfl, ha.2⟩

example : ∃ l, newLiteral (.decimal (List.replicate 16 3) 20 4) true = .ok l ∧ l.Faithful :=
  ⟨_, rfl, Or.inl rfl⟩

/-! ## C59 -/

theorem literalsToProto_mapL : ∀ (ls : List Lit), literalsToProto ls = Res.mapL literalToProto ls
  | [] => rfl
  | l :: ls => by simp [literalsToProto, literalsToProto_mapL ls]

theorem literalsFromProto_mapL : ∀ (ls : List PLit),
    literalsFromProto ls = Res.mapL literalFromProto ls
  | [] => rfl
  | l :: ls => by simp [literalsFromProto, literalsFromProto_mapL ls]

theorem keyValuesToProto_mapL : ∀ (kvs : List KeyValue) (ms : List PKeyValue),
    keyValuesToProto kvs = .ok ms →
    Res.mapL literalToProto (kvs.flatMap (fun | .mk k v => [k, v])) =
      .ok (ms.flatMap (fun | .mk k v => [k, v]))
  | [], ms, h => by cases h; rfl
  | .mk k v :: kvs, ms, h => by
    simp only [keyValuesToProto, Res.bind_eq_ok] at h
    obtain ⟨mk, h1, mv, h2, ms', h3, h4⟩ := h
    cases h4
    simp [h1, h2, keyValuesToProto_mapL kvs ms' h3]

theorem keyValuesFromProto_mapL : ∀ (kvs : List PKeyValue) (ms : List KeyValue),
    keyValuesFromProto kvs = .ok ms →
    Res.mapL literalFromProto (kvs.flatMap (fun | .mk k v => [k, v])) =
      .ok (ms.flatMap (fun | .mk k v => [k, v]))
  | [], ms, h => by cases h; rfl
  | .mk k v :: kvs, ms, h => by
    simp only [keyValuesFromProto, Res.bind_eq_ok] at h
    obtain ⟨mk, h1, mv, h2, ms', h3, h4⟩ := h
    cases h4
    simp [h1, h2, keyValuesFromProto_mapL kvs ms' h3]

/-- **C59 (writing).** The message written for a literal names the literal's kind, carries its
value, has the type's variation reference, is marked nullable exactly when the literal is a typed
null or its type is nullable, and contains the messages of its child literals in order. -/
theorem C59_literal_wire (l : Lit) (nb : Bool) (w : UInt32) (k : PLitKind)
    (h : literalToProto l = .ok (.mk nb w k)) :
    k.kindName = l.kindName ∧ k.payload = l.payload ∧
    Res.mapL literalToProto l.children = .ok k.children ∧
    ∃ t, l.getType = .ok t ∧ w = t.variation ∧
      (nb = true ↔ (l = .null t ∨ t.nullability = 1)) := by
  have hh : ∀ t k', litHeader t k' = .mk nb w k → k' = k ∧ w = t.variation ∧
      (nb = true ↔ t.nullability = 1) := by
    intro t k' e
    simp only [litHeader, PLit.mk.injEq] at e
    obtain ⟨rfl, rfl, rfl⟩ := e
    simp
  cases l with
  | nil => cases h
  | null t =>
    simp only [literalToProto, Res.bind_eq_ok] at h
    obtain ⟨m, h1, h2⟩ := h
    cases h2
    exact ⟨rfl, rfl, rfl, t, rfl, rfl, by simp⟩
  | prim v t =>
    simp only [literalToProto, Res.bind_eq_ok] at h
    obtain ⟨k', h1, h2⟩ := h
    obtain ⟨rfl, h3, h4⟩ := hh _ _ (Res.ok.inj h2)
    cases v <;> simp only [primLitKind, Res.ok.injEq, reduceCtorEq] at h1 <;> subst h1 <;>
      exact ⟨rfl, by simp [PLitKind.payload, Lit.payload], rfl, t, rfl, h3, by simp [h4]⟩
  | bytes kk b t =>
    obtain ⟨rfl, h3, h4⟩ := hh _ _ (Res.ok.inj h)
    cases kk <;> exact ⟨rfl, rfl, rfl, t, rfl, h3, by simp [h4]⟩
  | struct fs t =>
    simp only [literalToProto, Res.bind_eq_ok] at h
    obtain ⟨ms, h1, h2⟩ := h
    obtain ⟨rfl, h3, h4⟩ := hh _ _ (Res.ok.inj h2)
    exact ⟨rfl, rfl, by simpa [Lit.children, PLitKind.children, literalsToProto_mapL] using h1,
      t, rfl, h3, by simp [h4]⟩
  | list vs t =>
    simp only [literalToProto, Res.bind_eq_ok] at h
    obtain ⟨ms, h1, h2⟩ := h
    have hlen := literalsToProto_length _ _ h1
    cases ms with
    | nil =>
      cases vs <;> simp at hlen
      obtain ⟨m, h5, h6⟩ := Res.bind_eq_ok.1 h2
      obtain ⟨rfl, h3, h4⟩ := hh _ _ (Res.ok.inj h6)
      exact ⟨rfl, rfl, rfl, t, rfl, h3, by simp [h4]⟩
    | cons m ms =>
      cases vs with
      | nil => simp at hlen
      | cons v vs =>
      obtain ⟨rfl, h3, h4⟩ := hh _ _ (Res.ok.inj h2)
      exact ⟨rfl, rfl, by
        simp only [Lit.children, PLitKind.children]; rw [← literalsToProto_mapL]; exact h1,
        t, rfl, h3, by simp [h4]⟩
  | map kvs t =>
    cases kvs with
    | nil =>
      simp only [literalToProto, Res.bind_eq_ok] at h
      obtain ⟨m, h1, h2⟩ := h
      obtain ⟨rfl, h3, h4⟩ := hh _ _ (Res.ok.inj h2)
      exact ⟨rfl, rfl, rfl, t, rfl, h3, by simp [h4]⟩
    | cons x xs =>
      simp only [literalToProto, Res.bind_eq_ok] at h
      obtain ⟨m, h1, h2⟩ := h
      obtain ⟨rfl, h3, h4⟩ := hh _ _ (Res.ok.inj h2)
      exact ⟨rfl, rfl, keyValuesToProto_mapL _ _ h1, t, rfl, h3, by simp [h4]⟩
  | proto v' t =>
    simp only [literalToProto, Res.bind_eq_ok] at h
    obtain ⟨k', h1, h2⟩ := h
    obtain ⟨rfl, h3, h4⟩ := hh _ _ (Res.ok.inj h2)
    refine ⟨?_, ?_, ?_, t, rfl, h3, by simp [h4]⟩ <;> clear h2 h3 h4 hh
    all_goals
      unfold protoLitKind at h1
      split at h1
      · obtain ⟨ps, g1, g2⟩ := Res.bind_eq_ok.1 h1
        split at g2 <;> cases g2 <;> rfl
      all_goals first
        | (split at h1 <;> cases h1 <;> rfl)
        | skip
    all_goals
      cases h1
      rename_i hu hiy hid hvc hd hpt hpts hptz
      cases t with
      | prim kk n v => cases kk <;> first | rfl | exact absurd rfl (hiy _ _) | (cases v' <;> rfl)
      | prec kk n v p =>
        cases kk <;> first
          | exact absurd rfl (hid _ _ _) | exact absurd rfl (hpt _ _ _)
          | exact absurd rfl (hpts _ _ _) | exact absurd rfl (hptz _ _ _)
      | fixed kk n v l =>
        cases kk <;> first | rfl | exact absurd rfl (hvc _ _ _) | (cases v' <;> rfl)
      | decimal => exact absurd rfl (hd _ _ _ _)
      | udt => exact absurd rfl (hu _ _ _ _)
      | _ => first | rfl | (cases v' <;> rfl)
  | intervalYearToMonth y m n =>
    obtain ⟨rfl, h3, h4⟩ := hh _ _ (Res.ok.inj h)
    exact ⟨rfl, rfl, rfl, _, rfl, h3, by simp [h4, Ty.nullability]⟩
  | intervalCompound y m d s ss p n =>
    obtain ⟨rfl, h3, h4⟩ := hh _ _ (Res.ok.inj h)
    refine ⟨rfl, ?_, rfl, _, rfl, h3, by simp [h4, Ty.nullability]⟩
    unfold compoundLitKind
    by_cases h1 : y ≠ 0 ∨ m ≠ 0 <;> by_cases h2 : d ≠ 0 ∨ s ≠ 0 ∨ ss ≠ 0 <;>
      simp only [h1, h2, if_true, if_false] <;>
      (try simp only [not_or, Decidable.not_not] at h1 h2) <;>
      simp [PLitKind.payload, Lit.payload, h1, h2]

/-- **C59 (reading).** A literal read from a message is of the kind the message names, consists of
the literals read from the child messages in order, carries the message's value (except that i8
and i16 values outside the kind's range are truncated and deprecated microseconds of compound
intervals move), and - unless it is a typed null - is nullable exactly when the message says so. -/
theorem C59_literal_read (l : Lit) (nb : Bool) (w : UInt32) (k : PLitKind)
    (h : literalFromProto (.mk nb w k) = .ok l) (hn : l ≠ .nil) :
    l.kindName = k.kindName ∧
    Res.mapL literalFromProto k.children = .ok l.children ∧
    ((∀ i, k ≠ .i8 i) → (∀ i, k ≠ .i16 i) → (∀ a b, k ≠ .intervalCompound a b) →
      l.payload = k.payload) ∧
    ∃ t, l.getType = .ok t ∧
      ((∃ m, k = .null m) ∨ t.nullability = if nb then 1 else 2) := by
  have hnb : getNullability nb = if nb then 1 else 2 := by cases nb <;> rfl
  simp only [literalFromProto] at h
  cases k with
  | unset => cases h
  | intervalDayToSecond d =>
    simp only [literalKindFromProto, Res.ok.injEq] at h
    subst h
    unfold intervalDayFromProto at hn ⊢
    split at hn <;> (try split at hn) <;> first
      | exact absurd rfl hn
      | (simp only [*]
         exact ⟨rfl, rfl, fun _ _ _ => rfl, _, rfl, Or.inr hnb⟩)
  | precisionTime p i =>
    simp only [literalKindFromProto, Res.ok.injEq] at h
    subst h
    unfold precisionFromProto protoToTimePrecision at hn ⊢
    by_cases hp : p < 0 ∨ p > 9 <;> by_cases hi : i < 0 <;> simp [hp, hi] at hn ⊢
    exact ⟨rfl, rfl, rfl, _, rfl, hnb⟩
  | precisionTimestamp p i =>
    simp only [literalKindFromProto, Res.ok.injEq] at h
    subst h
    unfold precisionFromProto protoToTimePrecision at hn ⊢
    by_cases hp : p < 0 ∨ p > 9 <;> by_cases hi : i < 0 <;> simp [hp, hi] at hn ⊢
    exact ⟨rfl, rfl, rfl, _, rfl, hnb⟩
  | precisionTimestampTz p i =>
    simp only [literalKindFromProto, Res.ok.injEq] at h
    subst h
    unfold precisionFromProto protoToTimePrecision at hn ⊢
    by_cases hp : p < 0 ∨ p > 9 <;> by_cases hi : i < 0 <;> simp [hp, hi] at hn ⊢
    exact ⟨rfl, rfl, rfl, _, rfl, hnb⟩
  | intervalCompound ym ds =>
    simp only [literalKindFromProto, Res.ok.injEq] at h
    subst h
    unfold intervalCompoundFromProto at hn ⊢
    cases ds with
    | none => exact ⟨rfl, rfl, fun _ _ h => absurd rfl (h _ _), _, rfl, Or.inr hnb⟩
    | some d =>
      dsimp only at hn ⊢
      split at hn
      · simp only [*]
        exact ⟨rfl, rfl, fun _ _ h => absurd rfl (h _ _), _, rfl, Or.inr hnb⟩
      · exact absurd rfl hn
  | null m =>
    simp only [literalKindFromProto, Res.bind_eq_ok] at h
    obtain ⟨t, h1, h2⟩ := h
    cases h2
    exact ⟨rfl, rfl, fun _ _ _ => rfl, _, rfl, Or.inl ⟨_, rfl⟩⟩
  | struct fs =>
    simp only [literalKindFromProto, Res.bind_eq_ok] at h
    obtain ⟨ls, h1, ts, h2, h3⟩ := h
    cases h3
    exact ⟨rfl, by rw [literalsFromProto_mapL] at h1; exact h1, fun _ _ _ => rfl, _, rfl,
      Or.inr hnb⟩
  | list fs =>
    simp only [literalKindFromProto, Res.bind_eq_ok] at h
    obtain ⟨ls, h1, h2⟩ := h
    cases ls with
    | nil => cases h2
    | cons x xs =>
      obtain ⟨t, h3, h4⟩ := Res.bind_eq_ok.1 h2
      cases h4
      exact ⟨rfl, by rw [literalsFromProto_mapL] at h1; exact h1, fun _ _ _ => rfl, _, rfl,
        Or.inr hnb⟩
  | map kvs =>
    simp only [literalKindFromProto, Res.bind_eq_ok] at h
    obtain ⟨ls, h1, h2⟩ := h
    cases ls with
    | nil => cases h2
    | cons x xs =>
      obtain ⟨a, b⟩ := x
      obtain ⟨t, h3, h4⟩ := Res.bind_eq_ok.1 h2
      obtain ⟨u, h5, h6⟩ := Res.bind_eq_ok.1 h4
      cases h6
      exact ⟨rfl, keyValuesFromProto_mapL _ _ h1, fun _ _ _ => rfl, _, rfl, Or.inr hnb⟩
  | emptyList o =>
    cases o with
    | none => cases h
    | some x =>
      obtain ⟨a, b, c⟩ := x
      simp only [literalKindFromProto, Res.bind_eq_ok] at h
      obtain ⟨t, h1, h2⟩ := h
      cases h2
      exact ⟨rfl, rfl, fun _ _ _ => rfl, _, rfl, Or.inr hnb⟩
  | emptyMap o =>
    cases o with
    | none => cases h
    | some x =>
      obtain ⟨a, b, c, d⟩ := x
      simp only [literalKindFromProto, Res.bind_eq_ok] at h
      obtain ⟨t, h1, u, h2, h3⟩ := h
      cases h3
      exact ⟨rfl, rfl, fun _ _ _ => rfl, _, rfl, Or.inr hnb⟩
  | userDefined ref ps val =>
    simp only [literalKindFromProto, Res.bind_eq_ok] at h
    obtain ⟨t, h1, h2⟩ := h
    cases h2
    exact ⟨rfl, rfl, fun _ _ _ => rfl, _, rfl, Or.inr hnb⟩
  | i8 i => cases h; exact ⟨rfl, rfl, fun h => absurd rfl (h _), _, rfl, Or.inr hnb⟩
  | i16 i => cases h; exact ⟨rfl, rfl, fun _ h => absurd rfl (h _), _, rfl, Or.inr hnb⟩
  | _ => cases h; exact ⟨rfl, rfl, fun _ _ _ => rfl, _, rfl, Or.inr hnb⟩

/-- A list of nullable strings with a variation reference, written and read. -/
example : ∃ m, literalToProto (.list [.prim (.string [65]) (.prim .string 1 3)]
      (.list 2 5 (.prim .string 1 3))) = .ok m ∧
    m = .mk false 5 (.list [.mk true 3 (.string [65])]) ∧
    literalFromProto m = .ok (.list [.prim (.string [65]) (.prim .string 1 3)]
      (.list 2 5 (.prim .string 1 3))) := ⟨_, rfl, rfl, rfl⟩

end Verif
