import Verif.Spec.TestCaseAgg
import Verif.Lemmas.TestCase
import Verif.Lemmas.FuncCall
import Verif.Lemmas.Aggregate
/-!
# Lemmas about tables, calls and files of function tests
-/

namespace Verif

theorem isNullLit_iff {l : Lit} : l.isNullLit = true ↔ ¬ l.NotNull := by
  cases l <;> simp [Lit.isNullLit, Lit.NotNull]

theorem isNullLit_of {l : Lit} (h : l.NotNull) : l.isNullLit = false := by
  rw [Bool.eq_false_iff]; exact fun h' => isNullLit_iff.1 h' h

theorem newDecimalWithType_notNull {v : ProtoVal} {t : Ty} {n : Nullability} {p s : Int32} {l : Lit}
    (h : newDecimalWithType v t n p s = .ok l) : l.NotNull := by
  unfold newDecimalWithType at h
  split at h
  · split at h
    · split at h
      · cases h
      · rw [Res.bind_eq_ok] at h
        obtain ⟨⟨b, p', s'⟩, -, h⟩ := h
        exact newLiteral_notNull h
    · cases h
  · cases h

theorem newVarCharWithType_notNull {v : ProtoVal} {t t' : Ty} {n : Int32} {l : Lit}
    (h : newVarCharWithType v t t' n = .ok l) : l.NotNull := by
  unfold newVarCharWithType at h
  split at h
  · split at h
    · split at h
      · cases h
      · cases h; intro t ht; cases ht
    · cases h
  · cases h

theorem newIntervalDayWithType_notNull {v : ProtoVal} {t t' : Ty} {n : Int32} {l : Lit}
    (h : newIntervalDayWithType v t t' n = .ok l) : l.NotNull := by
  unfold newIntervalDayWithType at h
  split at h
  · split at h
    · cases h; intro t ht; cases ht
    · cases h
  · cases h

theorem newTimeWithType_notNull {k : Prec} {v : ProtoVal} {t t' : Ty} {n : Int32} {l : Lit}
    (h : newTimeWithType k v t t' n = .ok l) : l.NotNull := by
  unfold newTimeWithType at h
  split at h
  · split at h
    · cases h
    · split at h
      · split at h
        · cases h
        · rw [Res.bind_eq_ok] at h
          obtain ⟨r, -, h⟩ := h
          cases h; intro t ht; cases ht
      · cases h
  · cases h

theorem withType_notNull {l l' : Lit} {t : Ty} (h : l.withType t = .ok l') : l'.NotNull := by
  unfold Lit.withType at h
  split at h
  · split at h <;> cases h; intro t ht; cases ht
  · split at h <;> cases h; intro t ht; cases ht
  · split at h <;> cases h; intro t ht; cases ht
  · split at h <;> cases h <;> (intro t ht; cases ht)
  · split at h
    · exact newDecimalWithType_notNull h
    · exact newVarCharWithType_notNull h
    · exact newIntervalDayWithType_notNull h
    · exact newTimeWithType_notNull h
    · cases h
  · cases h

theorem getIntLiteral_notNull {s : Bytes} {t : Ty} {l : Lit} (h : getIntLiteral s t = .ok l) : l.NotNull := by
  unfold getIntLiteral at h
  rw [Res.bind_eq_ok] at h
  obtain ⟨i, -, h⟩ := h
  split at h <;> cases h <;> (intro t ht; cases ht)

theorem getFloatLiteral_notNull {x : TcExt} {s : Bytes} {t : Ty} {l : Lit}
    (h : getFloatLiteral x s t = .ok l) : l.NotNull := by
  unfold getFloatLiteral at h
  rw [Res.bind_eq_ok] at h
  obtain ⟨i, -, h⟩ := h
  split at h <;> cases h <;> (intro t ht; cases ht)

theorem literalFromString_notNull {x : TcExt} {s : Bytes} {t : Ty} {l : Lit}
    (h : literalFromString x s t = .ok (some l)) : l.NotNull := by
  unfold literalFromString at h
  split at h
  · simp only [Res.bind_eq_ok] at h; obtain ⟨l', h1, h⟩ := h; cases h; exact getIntLiteral_notNull h1
  · simp only [Res.bind_eq_ok] at h; obtain ⟨l', h1, h⟩ := h; cases h; exact getIntLiteral_notNull h1
  · simp only [Res.bind_eq_ok] at h; obtain ⟨l', h1, h⟩ := h; cases h; exact getIntLiteral_notNull h1
  · simp only [Res.bind_eq_ok] at h; obtain ⟨l', h1, h⟩ := h; cases h; exact getIntLiteral_notNull h1
  · simp only [Res.bind_eq_ok] at h; obtain ⟨l', h1, h⟩ := h; cases h; exact getFloatLiteral_notNull h1
  · simp only [Res.bind_eq_ok] at h; obtain ⟨l', h1, h⟩ := h; cases h; exact getFloatLiteral_notNull h1
  · simp only [Res.bind_eq_ok] at h; obtain ⟨l', h1, h⟩ := h; cases h; exact newLiteral_notNull h1
  · simp only [Res.bind_eq_ok] at h; obtain ⟨l', h1, h⟩ := h; cases h; exact newLiteral_notNull h1
  · simp only [Res.bind_eq_ok] at h; obtain ⟨_, _, l', h1, h⟩ := h; cases h; exact withType_notNull h1
  · simp only [Res.bind_eq_ok] at h; obtain ⟨_, _, l', h1, h⟩ := h; cases h; exact withType_notNull h1
  · simp only [Res.bind_eq_ok] at h; obtain ⟨_, _, l', h1, h⟩ := h; cases h; exact withType_notNull h1
  · simp only [Res.bind_eq_ok] at h; obtain ⟨_, _, l', h1, h⟩ := h; cases h; exact withType_notNull h1
  · cases h

theorem newDate_notNull {x : TcExt} {s : Bytes} {q : Bool} {l : Lit} (h : newDateFromString x s q = .ok l) :
    l.NotNull := by
  simp only [newDateFromString, Res.bind_eq_ok] at h; obtain ⟨_, -, h⟩ := h; exact newLiteral_notNull h
theorem newTime_notNull {x : TcExt} {s : Bytes} {q : Bool} {l : Lit} (h : newTimeFromString x s q = .ok l) :
    l.NotNull := by
  simp only [newTimeFromString, Res.bind_eq_ok] at h; obtain ⟨_, -, _, -, h⟩ := h; exact newLiteral_notNull h
theorem newTimestamp_notNull {x : TcExt} {s : Bytes} {q : Bool} {l : Lit}
    (h : newTimestampFromString x s q = .ok l) : l.NotNull := by
  simp only [newTimestampFromString, Res.bind_eq_ok] at h; obtain ⟨_, -, h⟩ := h; exact newLiteral_notNull h
theorem newTimestampTz_notNull {x : TcExt} {s : Bytes} {q : Bool} {l : Lit}
    (h : newTimestampTzFromString x s q = .ok l) : l.NotNull := by
  simp only [newTimestampTzFromString, Res.bind_eq_ok] at h; obtain ⟨_, -, h⟩ := h; exact newLiteral_notNull h
theorem newIntervalYear_notNull {s : Bytes} {q : Bool} {l : Lit}
    (h : newIntervalYearFromString s q = .ok l) : l.NotNull := by
  simp only [newIntervalYearFromString, Res.bind_eq_ok] at h; obtain ⟨_, -, h⟩ := h; exact newLiteral_notNull h
theorem newIntervalDay_notNull {x : TcExt} {s : Bytes} {q : Bool} {l : Lit}
    (h : newIntervalDayFromString x s q = .ok l) : l.NotNull := by
  simp only [newIntervalDayFromString, Res.bind_eq_ok] at h; obtain ⟨_, -, h⟩ := h; exact newLiteral_notNull h

/-- Without a type in context every literal is read as something, and only `null` as a null. -/
theorem visitLiteral_none {x : TcExt} {l : TcLit} {r : Option Lit} (h : visitLiteral x none l = .ok r) :
    ∃ v, r = some v ∧ (v.isNullLit = true ↔ l = .null) := by
  have key : ∀ {v : Lit}, v.NotNull → l ≠ .null → (v.isNullLit = true ↔ l = .null) := by
    intro v hv hl; simp [isNullLit_of hv, hl]
  cases l <;> simp only [visitLiteral, ctxNullable, Res.bind_eq_ok] at h
  case null => cases h; exact ⟨_, rfl, by simp [newNullLiteral, Lit.isNullLit]⟩
  case intervalCompound => cases h
  all_goals obtain ⟨v, hv, h⟩ := h; cases h; refine ⟨v, rfl, key ?_ (by simp)⟩
  all_goals first
    | exact newLiteral_notNull hv
    | exact newDate_notNull hv
    | exact newTime_notNull hv
    | exact newTimestamp_notNull hv
    | exact newTimestampTz_notNull hv
    | exact newIntervalYear_notNull hv
    | exact newIntervalDay_notNull hv

/-- A cell of a table: what is written and what it becomes. -/
def TableCell (x : TcExt) (t : Option Ty) (l : TcLit) (c : Lit) : Prop :=
  ∃ v, visitLiteral x none l = .ok (some v) ∧ tableCell x t v = .ok c

theorem visitRow_ok {x : TcExt} {cells : List TcLit} {ls : List Lit} (h : visitRow x cells = .ok ls) :
    List.Forall₂ (fun c v => visitLiteral x none c = .ok (some v)) cells ls := by
  unfold visitRow at h
  rw [Res.bind_eq_ok] at h
  obtain ⟨rs, h1, h2⟩ := h
  cases h2
  rw [mapL_forall₂] at h1
  induction h1 with
  | nil => exact .nil
  | cons h _ ih =>
      obtain ⟨v, rfl, -⟩ := visitLiteral_none h
      exact .cons h ih

theorem index_nat {α : Type} {l : List α} {i : Nat} {a : α} : Res.index l (i : Int) = .ok a ↔ l[i]? = some a := by
  unfold Res.index
  rw [if_pos (by omega), Int.toNat_natCast]
  cases l[i]? <;> simp

theorem getLiteral_null {x : TcExt} {v c : Lit} {t : Option Ty} (h : getLiteral x v t = .ok c) :
    c.isNullLit = v.isNullLit := by
  unfold getLiteral at h
  split at h
  · rw [Res.bind_eq_ok] at h
    obtain ⟨r, h1, h2⟩ := h
    cases h2
    cases r with
    | none => rfl
    | some l => rw [Option.getD_some, isNullLit_of (literalFromString_notNull h1)]; rfl
  · cases h; rfl

theorem TableCell.null {x : TcExt} {t : Option Ty} {l : TcLit} {c : Lit} (h : TableCell x t l c) :
    c.isNullLit = true ↔ l = .null := by
  obtain ⟨v, h1, h2⟩ := h
  obtain ⟨v', hv, h3⟩ := visitLiteral_none h1
  cases hv
  rw [← h3]
  unfold tableCell at h2
  rw [Res.bind_eq_ok] at h2
  obtain ⟨c', h4, h5⟩ := h2
  rw [← getLiteral_null h4]
  split at h5
  · rename_i hn
    cases t with
    | none => cases h5
    | some t => cases h5; rw [hn]; simp [newNullLiteral, Lit.isNullLit]
  · cases h5; rfl

theorem tableColumn_ok {x : TcExt} {rows : List (List TcLit)} {vals : List (List Lit)} {t : Option Ty} {i : Nat}
    {cells : List Lit} {t' : Option Ty} (hr : Res.mapL (visitRow x) rows = .ok vals)
    (h : tableColumn x vals t i = .ok (cells, t')) :
    (∀ row ∈ rows, i < row.length) ∧ List.Forall₂ (TableCell x t) (columnAt rows i) cells ∧
      t' = (if cells.any Lit.isNullLit then t.map (·.withNullability NullabilityNullable) else t) := by
  unfold tableColumn at h
  rw [Res.bind_eq_ok] at h
  obtain ⟨cs, h1, h2⟩ := h
  cases h2
  refine ⟨?_, ?_, rfl⟩ <;> rw [mapL_forall₂] at hr h1
  · induction hr generalizing cells with
    | nil => simp
    | @cons r v rows vals hr _ ih =>
        cases h1 with
        | cons h1 h2 =>
        rw [Res.bind_eq_ok] at h1
        obtain ⟨l, hl, -⟩ := h1
        rw [index_nat] at hl
        have hlen := (visitRow_ok hr).length_eq
        have := (List.getElem?_eq_some_iff.1 hl).1
        intro row hrow
        rcases List.mem_cons.1 hrow with rfl | hrow
        · omega
        · exact ih h2 row hrow
  · induction hr generalizing cells with
    | nil => cases h1; exact .nil
    | @cons r v rows vals hr _ ih =>
        cases h1 with
        | cons h1 h2 =>
        rw [Res.bind_eq_ok] at h1
        obtain ⟨l, hl, hc⟩ := h1
        rw [index_nat] at hl
        have hf := visitRow_ok hr
        obtain ⟨hi, rfl⟩ := List.getElem?_eq_some_iff.1 hl
        have hlen := hf.length_eq
        have hi' : i < r.length := by omega
        have : columnAt (r :: rows) i = r[i] :: columnAt rows i := by
          simp [columnAt, List.getElem?_eq_getElem hi']
        rw [this]
        exact .cons ⟨_, (List.forall₂_iff_get.1 hf).2 i hi' hi, hc⟩ (ih h2)

theorem getColumns_ok {x : TcExt} {vals : List (List Lit)} {ts : List (Option Ty)}
    {cols : List (List Lit × Option Ty)} (h : getColumnsFromRows x vals ts = .ok cols) :
    cols.length = ts.length ∧ ∀ i t, ts[i]? = some t → ∃ c, cols[i]? = some c ∧ tableColumn x vals t i = .ok c := by
  unfold getColumnsFromRows at h
  rw [mapL_forall₂] at h
  have hl := h.length_eq
  rw [List.length_zipIdx] at hl
  refine ⟨hl.symm, fun i t ht => ?_⟩
  obtain ⟨hi, rfl⟩ := List.getElem?_eq_some_iff.1 ht
  have h1 := (List.forall₂_iff_get.1 h).2 i (by simpa using hi) (by omega)
  refine ⟨cols[i]'(by omega), by simp [List.getElem?_eq_getElem, ← hl, hi], ?_⟩
  simpa using h1

/-- In a column of a readable type a plain cell of a table is read like one of a column. -/
theorem TableCell.like {x : TcExt} {tr : TcType} {t : Ty} {l : TcLit} {c : Lit} (ht : tcType tr = .ok t)
    (hr : tr.Readable) (hl : l.IsPlain) (h : TableCell x (some t) l c) :
    visitLiteral x (some t) l = .ok (some c) := by
  obtain ⟨v, h1, h2⟩ := h
  unfold tableCell at h2
  rw [Res.bind_eq_ok] at h2
  obtain ⟨c', h3, h4⟩ := h2
  cases l with
  | numeric s =>
      simp only [visitLiteral, newLiteral, newPrimLiteral, Res.ok_bind] at h1
      cases h1
      simp only [getLiteral, Res.bind_eq_ok] at h3
      obtain ⟨r, h5, h6⟩ := h3
      obtain ⟨l, rfl, -⟩ := literalFromString_typed ht hr h5
      cases h6
      rw [Option.getD_some, isNullLit_of (literalFromString_notNull h5)] at h4
      cases h4
      exact h5
  | string s =>
      simp only [visitLiteral, newLiteral, newPrimLiteral, Res.ok_bind] at h1
      cases h1
      simp only [getLiteral, Res.bind_eq_ok] at h3
      obtain ⟨r, h5, h6⟩ := h3
      obtain ⟨l, rfl, -⟩ := literalFromString_typed ht hr h5
      cases h6
      rw [Option.getD_some, isNullLit_of (literalFromString_notNull h5)] at h4
      cases h4
      simp only [visitLiteral, h5, Res.ok_bind]
  | null =>
      simp only [visitLiteral] at h1
      cases h1
      cases h3
      cases h4
      have : (t.withNullability NullabilityNullable).withNullability NullabilityNullable =
          t.withNullability NullabilityNullable := by
        cases tr with
        | prim => cases ht; rfl
        | decimal q ps =>
            cases ps with
            | none => cases ht; rfl
            | some ps =>
                simp only [tcType, Res.bind_eq_ok] at ht
                obtain ⟨_, -, _, -, ht⟩ := ht
                cases ht; rfl
        | fixed =>
            simp only [tcType, Res.bind_eq_ok] at ht
            obtain ⟨_, -, ht⟩ := ht
            cases ht; rfl
        | prec => exact hr.elim
        | list => exact hr.elim
        | other => exact hr.elim
      simp only [visitLiteral, newNullLiteral, this]
  | _ => exact hl.elim

theorem visitCells_same {x : TcExt} {t : Ty} {ls : List TcLit} {vs : List Lit}
    (h : List.Forall₂ (fun l v => visitLiteral x (some t) l = .ok (some v)) ls vs) :
    visitCells x t t ls = .ok vs := by
  induction h with
  | nil => rfl
  | @cons l v ls vs h _ ih =>
      have h1 : cellType t t l = t := by cases l <;> rfl
      have h2 : typeAfter t t l = t := by cases l <;> rfl
      simp only [visitCells, h1, h2, h, ih, Res.ok_bind]

theorem readable_not_intervals {tr : TcType} {t : Ty} (ht : tcType tr = .ok t) (hr : tr.Readable)
    (es : List TcElem) : ¬ TcElem.marksAny t es = true := by
  intro hm
  have h3 := tcType_intervals ht (marksAny_intervals hm)
  cases tr <;> first | exact h3.elim | exact hr.elim

theorem any_null {x : TcExt} {t : Option Ty} {ls : List TcLit} {cs : List Lit}
    (h : List.Forall₂ (TableCell x t) ls cs) : cs.any Lit.isNullLit = true ↔ TcLit.null ∈ ls := by
  induction h with
  | nil => simp
  | cons h _ ih =>
      rw [List.any_cons, Bool.or_eq_true, ih, h.null, List.mem_cons]
      exact or_congr_left eq_comm


theorem mapL_get {α β : Type} {f : α → Res β} {l : List α} {r : List β} (h : Res.mapL f l = .ok r) {i : Nat}
    {a : α} (ha : l[i]? = some a) : ∃ b, r[i]? = some b ∧ f a = .ok b := by
  rw [mapL_forall₂] at h
  obtain ⟨hi, rfl⟩ := List.getElem?_eq_some_iff.1 ha
  have hl := h.length_eq
  exact ⟨r[i]'(by omega), by simp [← hl, hi], (List.forall₂_iff_get.1 h).2 i hi (by omega)⟩

theorem columnTypesOf_length {n : Nat} {as : List AggArg} {ts ts' : List (Option Ty)}
    (h : columnTypesOf n as ts = .ok ts') : ts'.length = ts.length := by
  induction as generalizing ts with
  | nil => cases h; rfl
  | cons a as ih =>
      unfold columnTypesOf at h
      split at h
      · cases h
      · split at h
        · exact ih h
        · split at h
          · cases h
          · rw [ih h, List.length_set]

/-- A type that is there stays when the arguments with that index have it. -/
theorem columnTypesOf_keeps {n : Nat} {as : List AggArg} {ts ts' : List (Option Ty)} {i : Nat} {t : Ty}
    (h : columnTypesOf n as ts = .ok ts')
    (hs : ∀ b ∈ as, ∀ t', b.columnType = some t' → b.columnIndex.toInt = i → t' = t)
    (hi : ts[i]? = some (some t)) : ts'[i]? = some (some t) := by
  induction as generalizing ts with
  | nil => cases h; exact hi
  | cons a as ih =>
      have hs' : ∀ b ∈ as, ∀ t', b.columnType = some t' → b.columnIndex.toInt = i → t' = t :=
        fun b hb => hs b (List.mem_cons_of_mem _ hb)
      unfold columnTypesOf at h
      split at h
      · cases h
      · split at h
        · exact ih h hs' hi
        · rename_i t' ht'
          split at h
          · cases h
          · refine ih h hs' ?_
            by_cases he : a.columnIndex.toInt.toNat = i
            · have := hs a (by simp) t' ht' (by omega)
              subst this
              rw [he]
              have := (List.getElem?_eq_some_iff.1 hi).1
              simp [this]
            · rw [List.getElem?_set_ne he, hi]

theorem columnTypesOf_named {n : Nat} {as : List AggArg} {ts ts' : List (Option Ty)} {i : Nat} {t : Ty} {a : AggArg}
    (h : columnTypesOf n as ts = .ok ts') (hn : ts.length = n) (ha : a ∈ as) (hi : a.columnIndex.toInt = i)
    (ht : a.columnType = some t)
    (hs : ∀ b ∈ as, ∀ t', b.columnType = some t' → b.columnIndex.toInt = i → t' = t) :
    ts'[i]? = some (some t) := by
  induction as generalizing ts with
  | nil => cases ha
  | cons b as ih =>
      have hs' : ∀ b ∈ as, ∀ t', b.columnType = some t' → b.columnIndex.toInt = i → t' = t :=
        fun b hb => hs b (List.mem_cons_of_mem _ hb)
      unfold columnTypesOf at h
      split at h
      · cases h
      rename_i hlt
      rcases List.mem_cons.1 ha with rfl | ha'
      · rw [ht] at h
        simp only at h
        split at h
        · cases h
        · refine columnTypesOf_keeps h hs' ?_
          rw [hi, Int.toNat_natCast]
          have : i < ts.length := by omega
          simp [this]
      · split at h
        · exact ih h hn ha' hs'
        · split at h
          · cases h
          · exact ih h (by rw [List.length_set]; exact hn) ha' hs'

/-- The argument of a column name with a small index. -/
theorem newAggregateArgument_ok {tn : String} {cn : Bytes} {t : Option Ty} {a : AggArg}
    (h : newAggregateArgument tn cn t = .ok a) :
    ∃ i : Int, WritesInt (cn.drop 3) i ∧ 0 ≤ i ∧ a = ⟨none, tn, cn, t, Int32.ofInt i, false⟩ := by
  unfold newAggregateArgument at h
  rw [Res.bind_eq_ok] at h
  obtain ⟨i, h1, h2⟩ := h
  split at h2
  · cases h2
  · cases h2
    exact ⟨i, ((atoi_iff _ _).1 h1).1, by omega, rfl⟩

theorem toInt_ofInt_small {i : Int} (h : IsInt32 i) : (Int32.ofInt i).toInt = i := by
  obtain ⟨h1, h2⟩ := h
  exact Int32.toInt_ofInt_of_le (by omega) (by omega)

theorem fieldRefAt_ok {schema : List (Option Ty)} {i : Int32} {j : Nat} {t : Option Ty} (hi : i.toInt = j)
    (ht : schema[j]? = some t) :
    fieldRefAt schema i = .ok (.fieldRef .rootReference (.seg (.structField i .nil)) t) := by
  unfold fieldRefAt
  have := (List.getElem?_eq_some_iff.1 ht).1
  rw [if_neg (by rw [hi]; simp; omega), hi, index_nat.2 ht]
  rfl

/-- The arguments of the call when the columns are named in their order. -/
theorem aggregateCallArgs_ordered {tc : TestCase}
    (hc : ∀ (j : Nat) (a : AggArg), tc.aggregateArgs[j]? = some a → a.isScalar = false → a.columnIndex.toInt = j)
    (hs : ∀ a ∈ tc.aggregateArgs, a.isScalar = true → a.argument ≠ none) :
    ∃ as, tc.aggregateCallArgs = .ok as ∧ ∀ (j : Nat) (a : AggArg), tc.aggregateArgs[j]? = some a →
      (a.isScalar = true → ∃ c, a.argument = some c ∧ as[j]? = some c.value.toArg) ∧
      (a.isScalar = false → as[j]? = some (.expr (.fieldRef .rootReference
        (.seg (.structField a.columnIndex .nil)) a.columnType))) := by
  have key : ∀ (j : Nat) (a : AggArg), tc.aggregateArgs[j]? = some a → a.isScalar = false →
      fieldRefAt tc.tableSchema a.columnIndex =
        .ok (.fieldRef .rootReference (.seg (.structField a.columnIndex .nil)) a.columnType) := by
    intro j a ha hf
    refine fieldRefAt_ok (hc j a ha hf) ?_
    simp [TestCase.tableSchema, ha, hf]
  obtain ⟨as, has⟩ : ∃ as, tc.aggregateCallArgs = .ok as := by
    unfold TestCase.aggregateCallArgs
    refine mapL_total fun a ha => ?_
    obtain ⟨j, hj⟩ := List.mem_iff_getElem?.1 ha
    by_cases hsc : a.isScalar = true
    · rw [if_pos hsc]
      cases harg : a.argument with
      | none => exact absurd harg (hs a ha hsc)
      | some c => exact ⟨_, rfl⟩
    · rw [if_neg hsc, key j a hj (by simpa using hsc)]
      exact ⟨_, rfl⟩
  refine ⟨as, has, fun j a ha => ?_⟩
  unfold TestCase.aggregateCallArgs at has
  obtain ⟨b, hb, h⟩ := mapL_get has ha
  refine ⟨fun hsc => ?_, fun hsc => ?_⟩
  · rw [if_pos hsc] at h
    cases harg : a.argument with
    | none => rw [harg] at h; cases h
    | some c => rw [harg] at h; cases h; exact ⟨c, rfl, hb⟩
  · rw [if_neg (by simp [hsc]), key j a ha hsc] at h
    cases h
    exact hb

theorem toArg_isValue (v : CaseVal) : v.toArg.IsValue := by
  cases v
  · exact .expr
  · exact .enum

theorem aggregateCallArgs_values {tc : TestCase} {as : List EArg} (h : tc.aggregateCallArgs = .ok as) :
    ∀ a ∈ as, a.IsValue := by
  intro a ha
  unfold TestCase.aggregateCallArgs at h
  obtain ⟨g, -, hg⟩ := (mapL_ok_mem h a).1 ha
  split at hg
  · split at hg
    · cases hg
    · cases hg; exact toArg_isValue _
  · rw [Res.bind_eq_ok] at hg
    obtain ⟨e, -, he⟩ := hg
    cases he; exact .expr

/-- `firstMatch` calls the first function that has the URN and accepts the types. -/
theorem firstMatch_ok {α : Type} {urn : String} {ts : List Ty} {call : ExtId → Res α} {vs : List Variant} {r : α}
    (h : firstMatch urn ts call vs = .ok r) :
    ∃ pre v post id, vs = pre ++ v :: post ∧ v.id = .ok id ∧ id.urn = urn ∧ call id = .ok r ∧
      (∃ after, matchArguments v.impl.nullability v.impl.args v.impl.variadic ts = .ok (true, after)) ∧
      ∀ w ∈ pre, w.urn = urn →
        ∀ after, matchArguments w.impl.nullability w.impl.args w.impl.variadic ts ≠ .ok (true, after) := by
  induction vs with
  | nil => cases h
  | cons v vs ih =>
      have skip : ∀ (h : firstMatch urn ts call vs = .ok r)
          (hv : v.urn = urn → ∀ after, matchArguments v.impl.nullability v.impl.args v.impl.variadic ts ≠
            .ok (true, after)), ∃ pre w post id, v :: vs = pre ++ w :: post ∧ w.id = .ok id ∧ id.urn = urn ∧
            call id = .ok r ∧
            (∃ after, matchArguments w.impl.nullability w.impl.args w.impl.variadic ts = .ok (true, after)) ∧
            ∀ w ∈ pre, w.urn = urn →
              ∀ after, matchArguments w.impl.nullability w.impl.args w.impl.variadic ts ≠ .ok (true, after) := by
        intro h hv
        obtain ⟨pre, w, post, id, rfl, h1, h2, h3, h4, h5⟩ := ih h
        refine ⟨v :: pre, w, post, id, rfl, h1, h2, h3, h4, ?_⟩
        intro u hu
        rcases List.mem_cons.1 hu with rfl | hu
        · exact hv
        · exact h5 u hu
      unfold firstMatch at h
      split at h
      · cases h
      · rename_i hm
        exact skip h fun _ after he => by rw [hm] at he; cases he
      · rename_i b after hm
        split at h
        · rename_i hb
          subst hb
          rw [Res.bind_eq_ok] at h
          obtain ⟨id, hid, h⟩ := h
          have hu : id.urn = v.urn := by
            unfold Variant.id at hid
            rw [Res.bind_eq_ok] at hid
            obtain ⟨n, -, hid⟩ := hid
            cases hid; rfl
          split at h
          · rename_i hurn
            exact ⟨[], v, vs, id, rfl, hid, hurn, h, ⟨after, hm⟩, by simp⟩
          · rename_i hurn
            exact skip h fun hv => absurd (hu.trans hv) hurn
        · rename_i hb
          exact skip h fun _ after' he => by rw [hm] at he; cases he; exact hb rfl

theorem variant_id_name {v : Variant} {id : ExtId} (h : v.id = .ok id) :
    id.urn = v.urn ∧ ∃ sig, id.name = v.name ++ ":" ++ sig := by
  simp only [Variant.id, Variant.compoundName, Res.bind_eq_ok] at h
  obtain ⟨n, ⟨sig, -, h1⟩, h2⟩ := h
  cases h1; cases h2
  exact ⟨rfl, sig, rfl⟩

theorem tc_id_ok {tc : TestCase} {id : ExtId} (h : tc.id = .ok id) :
    id.urn = tc.urn ∧ ∃ sig, id.name = tc.funcName ++ ":" ++ sig := by
  simp only [TestCase.id, Res.bind_eq_ok] at h
  obtain ⟨ts, -, h⟩ := h
  cases h
  exact ⟨rfl, _, rfl⟩

/-- The identifier that is called belongs to the extension and the name of the test. -/
theorem callOrMatch_ok {α : Type} {tc : TestCase} {id : ExtId} {n : Nat} {fs : List Variant}
    {call : ExtId → Res α} {r : α} (hid : tc.id = .ok id) (h : callOrMatch tc id n fs call = .ok r) :
    ∃ id', call id' = .ok r ∧ id'.urn = tc.urn ∧ ∃ sig, id'.name = tc.funcName ++ ":" ++ sig := by
  obtain ⟨hu, hn⟩ := tc_id_ok hid
  unfold callOrMatch at h
  split at h
  · rename_i a ha
    cases h
    exact ⟨id, ha, hu, hn⟩
  · cases h
  · rw [Res.bind_eq_ok] at h
    obtain ⟨ts, -, h⟩ := h
    obtain ⟨pre, v, post, id', hvs, h1, h2, h3, -, -⟩ := firstMatch_ok h
    have hm : v ∈ fs.filter (·.serves tc.funcName n) := by rw [hvs]; simp
    have hs := (List.mem_filter.1 hm).2
    simp only [Variant.serves, Bool.and_eq_true, decide_eq_true_eq] at hs
    obtain ⟨-, sig, hsig⟩ := variant_id_name h1
    exact ⟨id', h3, h2.trans hu, sig, by rw [hsig, hs.1]⟩

theorem nameOf_compound {f sig n : String} (h : NameOf (f ++ ":" ++ sig) n) : ∃ sig', n = f ++ ":" ++ sig' := by
  rcases h with rfl | ⟨s, rfl⟩
  · exact ⟨sig, rfl⟩
  · exact ⟨sig ++ ":" ++ s, by simp only [String.append_assoc]⟩

end Verif
