import Verif.Lemmas.TestCaseAgg
import Verif.Props.FuncCall
/-!
# Properties of function test files: tables, calls and files (C103-C106)

Everything external (time texts, floats, decimal texts) is the parameter `x`, about which nothing is
assumed unless stated.
-/

namespace Verif

/-- external functions that refuse everything, for the examples -/
def noTcExt : TcExt :=
  ⟨fun _ => .err, fun _ => .err, fun _ => .err, fun _ => 0, fun _ => .err, fun _ => (0, 0, 0)⟩

/-! ## C103: tables -/

/-- **C103.** In a table that is accepted every row has as many cells as there are columns, and every value
has the type of its column, made nullable when the column has a null. -/
def C103_statement : Prop :=
  ∀ (x : TcExt) (table : String) (types : List TcType) (rows : List (List TcLit)) (name : String)
    (args : List TcTableArg) (p : CallParts), visitCall x (.table table types rows name args) = .ok p →
    (∀ row ∈ rows, row.length = types.length) ∧
    ∀ (i : Nat) tr, types[i]? = some tr → tr.Small → ∃ vs t T, p.columns[i]? = some (vs, some T) ∧ tr.Means t ∧
      nullableIf (columnAt rows i) t T ∧ ∀ v ∈ vs, v.getType = .ok t ∨ v.getType = .ok T

/-- what is known of a column of a table -/
theorem table_column {x : TcExt} {table : String} {types : List TcType} {rows : List (List TcLit)}
    {name : String} {args : List TcTableArg} {p : CallParts}
    (h : visitCall x (.table table types rows name args) = .ok p) :
    p.columns.length = types.length ∧ ∀ (i : Nat) tr, types[i]? = some tr → ∃ vs t T,
      p.columns[i]? = some (vs, some T) ∧ tcType tr = .ok t ∧ (∀ row ∈ rows, i < row.length) ∧
      List.Forall₂ (TableCell x (some t)) (columnAt rows i) vs ∧
      T = if vs.any Lit.isNullLit then t.withNullability NullabilityNullable else t := by
  simp only [visitCall, Res.bind_eq_ok] at h
  obtain ⟨vals, h1, ts, h2, cols, h3, as, h4, as', h5, h6⟩ := h
  cases h6
  obtain ⟨hl, hc⟩ := getColumns_ok h3
  refine ⟨by rw [hl, List.length_map, mapL_length h2], fun i tr htr => ?_⟩
  obtain ⟨t, ht, htr'⟩ := mapL_get h2 htr
  obtain ⟨⟨vs, T⟩, hcol, hcol'⟩ := hc i (some t) (by simp [ht])
  obtain ⟨g1, g2, g3⟩ := tableColumn_ok h1 hcol'
  refine ⟨vs, t, _, ?_, htr', g1, g2, rfl⟩
  rw [hcol, g3]
  split <;> rfl

theorem columnAt_length {α : Type} {rows : List (List α)} {i : Nat} (h : ∀ row ∈ rows, i < row.length) :
    (columnAt rows i).length = rows.length := by
  induction rows with
  | nil => rfl
  | cons r rows ih =>
      have hr := h r (by simp)
      have : columnAt (r :: rows) i = r[i] :: columnAt rows i := by
        simp [columnAt, List.getElem?_eq_getElem hr]
      rw [this, List.length_cons, List.length_cons, ih fun row hrow => h row (List.mem_cons_of_mem _ hrow)]

theorem nullableIf_of {x : TcExt} {t : Ty} {ls : List TcLit} {vs : List Lit}
    (h : List.Forall₂ (TableCell x (some t)) ls vs) :
    nullableIf ls t (if vs.any Lit.isNullLit then t.withNullability NullabilityNullable else t) := by
  constructor
  · intro hn; rw [if_pos ((any_null h).2 hn)]
  · intro hn; rw [if_neg fun ha => hn ((any_null h).1 ha)]

/-- **C103 (shape), partial.** A table with a row that is too short is refused. The columns are as many as the
declared types, each with one value for every row; the type of a column is the declared one, made
nullable exactly when there is a null in it. Missing: cells beyond the columns are not refused
(`C103_negation`), and values may have other types (`C103_negation_type`). -/
theorem C103_shape_partial (x : TcExt) (table : String) (types : List TcType) (rows : List (List TcLit))
    (name : String) (args : List TcTableArg) (p : CallParts)
    (h : visitCall x (.table table types rows name args) = .ok p) :
    p.columns.length = types.length ∧ (∀ row ∈ rows, types.length ≤ row.length) ∧
    ∀ (i : Nat) tr, types[i]? = some tr → tr.Small → ∃ vs t T, p.columns[i]? = some (vs, some T) ∧ tr.Means t ∧
      nullableIf (columnAt rows i) t T ∧ vs.length = rows.length := by
  obtain ⟨h1, h2⟩ := table_column h
  refine ⟨h1, fun row hrow => ?_, fun i tr htr hs => ?_⟩
  · by_cases ht : types = []
    · simp [ht]
    · have hlen : 0 < types.length := List.length_pos_iff.2 ht
      obtain ⟨_, _, _, -, -, hr, -⟩ := h2 (types.length - 1) (types[types.length - 1]'(by omega))
        (by rw [List.getElem?_eq_getElem])
      have := hr row hrow
      omega
  · obtain ⟨vs, t, T, g1, g2, g3, g4, rfl⟩ := h2 i tr htr
    exact ⟨vs, t, _, g1, tcType_means g2 hs, nullableIf_of g4, by rw [← g4.length_eq, columnAt_length g3]⟩

/-- **C103 (values), partial.** A column of numbers, strings and nulls whose type is one of those written like
that has the values that the same cells have as a single column, `(..)::type`; in particular each has
the declared type, or is a null of the type made nullable. -/
theorem C103_like_column_partial (x : TcExt) (table : String) (types : List TcType) (rows : List (List TcLit))
    (name : String) (args : List TcTableArg) (p : CallParts)
    (h : visitCall x (.table table types rows name args) = .ok p) (i : Nat) (tr : TcType)
    (htr : types[i]? = some tr) (hr : tr.Readable) (hc : ∀ l ∈ columnAt rows i, l.IsPlain) :
    ∃ vs t T, p.columns[i]? = some (vs, some T) ∧ tcType tr = .ok t ∧ nullableIf (columnAt rows i) t T ∧
      visitDataColumn x (columnAt rows i) tr = .ok ⟨T, .lit (.list vs (.list 2 0 T))⟩ ∧
      List.Forall₂ (fun l v => (l = .null → v = .null (t.withNullability 1)) ∧
        (l ≠ .null → v.getType = .ok t)) (columnAt rows i) vs := by
  obtain ⟨vs, t, T, g1, g2, -, g4, rfl⟩ := (table_column h).2 i tr htr
  have hlike : List.Forall₂ (fun l v => visitLiteral x (some t) l = .ok (some v)) (columnAt rows i) vs := by
    have : ∀ (ls : List TcLit) (vs : List Lit), (∀ l ∈ ls, l.IsPlain) → List.Forall₂ (TableCell x (some t)) ls vs →
        List.Forall₂ (fun l v => visitLiteral x (some t) l = .ok (some v)) ls vs := by
      intro ls vs hp hf
      induction hf with
      | nil => exact .nil
      | cons hh _ ih =>
          exact .cons (hh.like g2 hr (hp _ (by simp))) (ih fun l hl => hp l (List.mem_cons_of_mem _ hl))
    exact this _ _ hc g4
  refine ⟨vs, t, _, g1, g2, nullableIf_of g4, ?_, ?_⟩
  · simp only [visitDataColumn, g2, Res.ok_bind, if_neg (readable_not_intervals g2 hr _), visitCells_same hlike]
  · have : ∀ (ls : List TcLit) (vs : List Lit), (∀ l ∈ ls, l.IsPlain) →
        List.Forall₂ (fun l v => visitLiteral x (some t) l = .ok (some v)) ls vs →
        List.Forall₂ (fun l v => (l = .null → v = .null (t.withNullability 1)) ∧
          (l ≠ .null → v.getType = .ok t)) ls vs := by
      intro ls vs hp hf
      induction hf with
      | nil => exact .nil
      | @cons l v ls vs hh _ ih =>
          refine .cons ?_ (ih fun l hl => hp l (List.mem_cons_of_mem _ hl))
          have hpl := hp l (by simp)
          cases l with
          | numeric s =>
              simp only [visitLiteral] at hh
              obtain ⟨l', e, hl'⟩ := literalFromString_typed g2 hr hh
              cases e
              exact ⟨fun e => by (cases e), fun _ => hl'⟩
          | string s =>
              simp only [visitLiteral, Res.bind_eq_ok] at hh
              obtain ⟨r, hh, h3⟩ := hh
              obtain ⟨l', rfl, hl'⟩ := literalFromString_typed g2 hr hh
              cases h3
              exact ⟨fun e => by (cases e), fun _ => hl'⟩
          | null =>
              simp only [visitLiteral] at hh
              cases hh
              exact ⟨fun _ => rfl, fun e => absurd rfl e⟩
          | _ => exact hpl.elim
    exact this _ _ hc hlike

/-- **C103 (integers), partial.** An integer that belongs to the integer type of its column is read exactly, in
the row where it is written. -/
theorem C103_integers_partial (x : TcExt) (table : String) (types : List TcType) (rows : List (List TcLit))
    (name : String) (args : List TcTableArg) (p : CallParts)
    (h : visitCall x (.table table types rows name args) = .ok p) (i j : Nat) (k : Prim) (q : Bool) (row : List TcLit)
    (s : Bytes) (n : ℤ) (htr : types[i]? = some (.prim k q)) (hrow : rows[j]? = some row)
    (hcell : row[i]? = some (.numeric s)) (hs : WritesInt s n) (hk : k.Holds n) :
    ∃ vs T v, p.columns[i]? = some (vs, T) ∧ vs[j]? = some v ∧ v.integer = some n ∧
      v.getType = .ok (.prim k (mark q) 0) := by
  obtain ⟨vs, t, T, g1, g2, g3, g4, rfl⟩ := (table_column h).2 i _ htr
  have hcol : (columnAt rows i)[j]? = some (.numeric s) := by
    have : ∀ (rows : List (List TcLit)) (j : Nat), (∀ row ∈ rows, i < row.length) → rows[j]? = some row →
        (columnAt rows i)[j]? = row[i]? := by
      intro rows
      induction rows with
      | nil => intro j _ hj; simp at hj
      | cons r rows ih =>
          intro j hl hj
          have hr := hl r (by simp)
          have hcons : columnAt (r :: rows) i = r[i] :: columnAt rows i := by
            simp [columnAt, List.getElem?_eq_getElem hr]
          rw [hcons]
          cases j with
          | zero => simp only [List.getElem?_cons_zero, Option.some.injEq] at hj; subst hj; simp [hr]
          | succ j =>
              rw [List.getElem?_cons_succ]
              exact ih j (fun row hrow => hl row (List.mem_cons_of_mem _ hrow)) (by simpa using hj)
    rw [this rows j g3 hrow, hcell]
  obtain ⟨hj, he⟩ := List.getElem?_eq_some_iff.1 hcol
  have hlen := g4.length_eq
  have hc := (List.forall₂_iff_get.1 g4).2 j hj (by omega)
  simp only [List.get_eq_getElem, he] at hc
  have hread : TcType.Readable (.prim k q) := by
    cases k <;> simp only [Prim.Holds] at hk <;> simp [TcType.Readable]
  have hv := TableCell.like (l := .numeric s) g2 hread (by unfold TcLit.IsPlain; trivial) hc
  obtain ⟨l, hl1, hl2, hl3⟩ := getIntLiteral_of (q := q) hs hk
  have ht : t = .prim k (mark q) 0 := by
    simp only [tcType, mark_eq] at g2
    cases g2; rfl
  have : literalFromString x s t = .ok (some l) := by
    subst ht
    cases k <;> simp only [Prim.Holds] at hk <;> simp only [literalFromString, hl1, Res.ok_bind]
  simp only [visitLiteral, this] at hv
  refine ⟨vs, _, vs[j]'(by omega), g1, by simp [← hlen, hj], ?_⟩
  cases hv
  exact ⟨hl3, hl2⟩

/-- the name of column `n` -/
def colName (ds : Bytes) : Bytes := 99 :: 111 :: 108 :: ds

/-- `DEFINE t1(i32, string) = ((1, 'a'), (null, 'b')) f(t1.col0)` -/
def exTable : TcCall :=
  .table "t1" [.prim .i32 false, .prim .string false]
    [[.numeric [49], .string [39, 97, 39]], [.null, .string [39, 98, 39]]] "f" [.column "t1" (colName [48])]

/-- The hypotheses of the theorems are met; the columns of the example. -/
example (x : TcExt) : ∃ p, visitCall x exTable = .ok p ∧
    p.columns = [([.prim (.int32 1) (.prim .i32 2 0), .null (.prim .i32 1 0)], some (.prim .i32 1 0)),
      ([.prim (.string [97]) (.prim .string 2 0), .prim (.string [98]) (.prim .string 2 0)],
        some (.prim .string 2 0))] := ⟨_, rfl, rfl⟩

/-- **C103 is false of the code**: in `DEFINE t1(i32) = ((1, 2)) f(t1.col0)` the 2 is dropped. -/
theorem C103_negation : ¬ C103_statement := by
  intro h
  obtain ⟨p, hp⟩ : ∃ p, visitCall noTcExt (.table "t1" [.prim .i32 false] [[.numeric [49], .numeric [50]]] "f"
    [.column "t1" (colName [48])]) = .ok p := ⟨_, rfl⟩
  have := (h _ _ _ _ _ _ _ hp).1 [.numeric [49], .numeric [50]] (by simp)
  cases this

/-- The types are not right either: `true` in a column of strings stays a boolean. -/
theorem C103_negation_type (x : TcExt) : ∃ p, visitCall x (.table "t1" [.prim .string false] [[.bool true]] "f"
    [.column "t1" (colName [48])]) = .ok p ∧
    p.columns = [([.prim (.bool true) (.prim .boolean 2 0)], some (.prim .string 2 0))] := ⟨_, rfl, rfl⟩

/-- the arguments of a compact call -/
theorem compactArg_ok {x : TcExt} {g : TcColArg} {a : AggArg} (h : visitAggregateFuncArg x g = .ok a) :
    (∃ c b, g = .scalar c ∧ a = ⟨some b, "", [], none, 0, true⟩ ∧ visitArgument x c = .ok b) ∨
    ∃ n tr t i, g = .column n tr ∧ tcType tr = .ok t ∧ WritesInt (n.drop 3) i ∧ 0 ≤ i ∧
      a = ⟨none, "", n, some t, Int32.ofInt i, false⟩ := by
  cases g with
  | scalar c =>
      simp only [visitAggregateFuncArg, Res.bind_eq_ok] at h
      obtain ⟨b, h1, h2⟩ := h
      cases h2
      exact .inl ⟨c, b, rfl, rfl, h1⟩
  | column n tr =>
      simp only [visitAggregateFuncArg, Res.bind_eq_ok] at h
      obtain ⟨t, h1, h2⟩ := h
      obtain ⟨i, h3, h4, rfl⟩ := newAggregateArgument_ok h2
      exact .inr ⟨n, tr, t, i, rfl, h1, h3, h4, rfl⟩

/-- **C103 (compact calls), partial.** In `(rows) f(col1::type, ..)` a column that arguments name, all with one
type, is read like a single column `(..)::type`, if the type is one of those written as numbers or
strings and the cells are numbers, strings and nulls. Missing: see `C103_negation_unnamed` and
`C103_negation_refused`. -/
theorem C103_compact_partial (x : TcExt) (rows : List (List TcLit)) (name : String) (args : List TcColArg)
    (p : CallParts) (h : visitCall x (.compact rows name args) = .ok p) (i : Nat) (cn : Bytes) (tr : TcType)
    (harg : .column cn tr ∈ args) (hcn : WritesInt (cn.drop 3) i)
    (hall : ∀ cn' tr', .column cn' tr' ∈ args → ∀ i' : ℤ, WritesInt (cn'.drop 3) i' →
      IsInt32 i' ∧ (i' = i → tr' = tr))
    (hr : tr.Readable) (hc : ∀ l ∈ columnAt rows i, l.IsPlain) :
    (∀ row ∈ rows, i < row.length) ∧
    ∃ vs t T, p.columns[i]? = some (vs, some T) ∧ tcType tr = .ok t ∧ nullableIf (columnAt rows i) t T ∧
      visitDataColumn x (columnAt rows i) tr = .ok ⟨T, .lit (.list vs (.list 2 0 T))⟩ := by
  simp only [visitCall, Res.bind_eq_ok] at h
  obtain ⟨vals, h1, as, h2, row, h3, ts, h4, cols, h5, h6⟩ := h
  cases h6
  obtain ⟨j, hj⟩ := List.mem_iff_getElem?.1 harg
  obtain ⟨a, ha, ha'⟩ := mapL_get h2 hj
  rcases compactArg_ok ha' with ⟨_, _, e, -, -⟩ | ⟨_, _, t, i', e, ht, hi', -, rfl⟩
  · cases e
  cases e
  have hi : i' = i := hi'.unique hcn
  subst hi
  have hnamed : ts[i]? = some (some t) := by
    refine columnTypesOf_named h4 (by simp) (List.mem_of_getElem? ha) (toInt_ofInt_small (hall _ _ harg _ hcn).1)
      rfl ?_
    intro b hb t' hbt hbi
    obtain ⟨g, hg, hgb⟩ := (mapL_ok_mem h2 b).1 hb
    rcases compactArg_ok hgb with ⟨_, _, -, rfl, -⟩ | ⟨n, tr', t'', i'', rfl, ht', hi'', -, rfl⟩
    · cases hbt
    · obtain ⟨hsmall, hsame⟩ := hall _ _ hg _ hi''
      rw [toInt_ofInt_small hsmall] at hbi
      have := hsame hbi
      subst this
      cases hbt
      rw [ht] at ht'
      cases ht'
      rfl
  obtain ⟨⟨vs, T⟩, hcol, hcol'⟩ := (getColumns_ok h5).2 i _ hnamed
  obtain ⟨g1, g2, g3⟩ := tableColumn_ok h1 hcol'
  refine ⟨g1, vs, t, if vs.any Lit.isNullLit then t.withNullability NullabilityNullable else t, ?_, ht,
    nullableIf_of g2, ?_⟩
  · rw [hcol, g3]
    split <;> rfl
  · have hlike : List.Forall₂ (fun l v => visitLiteral x (some t) l = .ok (some v)) (columnAt rows i) vs := by
      have : ∀ (ls : List TcLit) (vs : List Lit), (∀ l ∈ ls, l.IsPlain) → List.Forall₂ (TableCell x (some t)) ls vs →
          List.Forall₂ (fun l v => visitLiteral x (some t) l = .ok (some v)) ls vs := by
        intro ls vs hp hf
        induction hf with
        | nil => exact .nil
        | cons hh _ ih =>
            exact .cons (hh.like ht hr (hp _ (by simp))) (ih fun l hl => hp l (List.mem_cons_of_mem _ hl))
      exact this _ _ hc g2
    simp only [visitDataColumn, ht, Res.ok_bind, if_neg (readable_not_intervals ht hr _), visitCells_same hlike]

/-- The hypotheses are met: `((1, 2), (3, 4)) f(col1::i32)`. -/
example (x : TcExt) : ∃ p, visitCall x (.compact [[.numeric [49], .numeric [50]], [.numeric [51], .numeric [52]]] "f"
      [.column (colName [49]) (.prim .i32 false)]) = .ok p ∧
    p.columns[1]? = some ([.prim (.int32 2) (.prim .i32 2 0), .prim (.int32 4) (.prim .i32 2 0)],
      some (.prim .i32 2 0)) := ⟨_, rfl, rfl⟩
example : WritesInt ((colName [49]).drop 3) ((1 : Nat) : ℤ) :=
  ⟨[49], ⟨by simp, by unfold Digits; decide⟩, .inl ⟨.inl rfl, by decide⟩⟩

/-- Columns that no argument names: numbers are strings, and the type is nil. -/
theorem C103_negation_unnamed (x : TcExt) : ∃ p, visitCall x (.compact [[.numeric [49], .numeric [50]]] "f"
      [.column (colName [49]) (.prim .i32 false)]) = .ok p ∧
    p.columns[0]? = some ([.prim (.string [49]) (.prim .string 2 0)], none) := ⟨_, rfl, rfl⟩

/-- ... and with a null in such a column the table is refused (a nil type is used). -/
theorem C103_negation_refused (x : TcExt) : visitCall x (.compact [[.null, .numeric [50]]] "f"
      [.column (colName [49]) (.prim .i32 false)]) = .panic := rfl

/-- Of two types for one column the last is taken, and the first argument keeps its own. -/
theorem C103_negation_conflict (x : TcExt) : ∃ p, visitCall x (.compact [[.numeric [49]]] "f"
      [.column (colName [48]) (.prim .i64 false), .column (colName [48]) (.prim .i32 false)]) = .ok p ∧
    p.columns = [([.prim (.int32 1) (.prim .i32 2 0)], some (.prim .i32 2 0))] ∧
    p.aggregateArgs.map (·.columnType) = [some (.prim .i64 2 0), some (.prim .i32 2 0)] := ⟨_, rfl, rfl, rfl⟩

/-- A single column loses elements that its type cannot read: the 1 in `f((1, true)::bool)`. -/
theorem C103_negation_lost (x : TcExt) : visitDataColumn x [.numeric [49], .bool true] (.prim .boolean false) =
    .ok ⟨.prim .boolean 2 0, .lit (.list [.prim (.bool true) (.prim .boolean 2 0)]
      (.list 2 0 (.prim .boolean 2 0)))⟩ := rfl

/-- **C103 (data).** The data of a test case are the columns of the table. -/
theorem C103_data (x : TcExt) (uri desc : String) (c : TcCase) (table : String) (types : List TcType)
    (rows : List (List TcLit)) (name : String) (args : List TcTableArg) (tc : TestCase) (p : CallParts)
    (hc : c.call = .table table types rows name args) (ht : types ≠ []) (hp : visitCall x c.call = .ok p)
    (h : visitTestCase x uri desc .aggregate c = .ok tc) :
    tc.columnsData = .ok (p.columns.map (·.1)) ∧ (p.columns.map (·.1)).length = types.length := by
  simp only [visitTestCase, Res.bind_eq_ok, hp] at h
  obtain ⟨p', hp', r, -, h⟩ := h
  cases hp'
  cases h
  rw [hc] at hp
  have hl := (table_column hp).1
  have : 0 < types.length := List.length_pos_iff.2 ht
  refine ⟨?_, by simpa using hl⟩
  simp only [TestCase.columnsData]
  rw [if_neg (by simp), if_pos (by omega)]

/-- The data of a single column `f((..)::type)` are the values of that column. -/
theorem C103_data_column (x : TcExt) (uri desc : String) (c : TcCase) (name : String) (cells : List TcLit)
    (tr : TcType) (tc : TestCase) (hc : c.call = .column name cells tr)
    (h : visitTestCase x uri desc .aggregate c = .ok tc) :
    ∃ vs T, visitDataColumn x cells tr = .ok ⟨T, .lit (.list vs (.list 2 0 T))⟩ ∧ tc.columnsData = .ok [vs] := by
  simp only [visitTestCase, hc, visitCall, Res.bind_eq_ok] at h
  obtain ⟨p, ⟨cl, hcl, hp⟩, r, -, h⟩ := h
  cases hp
  cases h
  have := hcl
  simp only [visitDataColumn, Res.bind_eq_ok] at this
  obtain ⟨t, -, vs, -, e⟩ := this
  cases e
  exact ⟨vs, _, hcl, rfl⟩

/-- The hypotheses are met. -/
example (x : TcExt) : ∃ tc, visitTestCase x "u" "d" .aggregate ⟨exTable, none, .undefined⟩ = .ok tc := ⟨_, rfl⟩

/-! ## C104: the arguments of the call of an aggregate function -/

/-- **C104.** In the call built from a test case with a table, the argument `t.colN` is a reference to the
field N of the input, with the type of the column N of the table. -/
def C104_statement : Prop :=
  ∀ (x : TcExt) (uri desc : String) (c : TcCase) (tc : TestCase) (table : String) (types : List TcType)
    (rows : List (List TcLit)) (name : String) (args : List TcTableArg),
    visitTestCase x uri desc .aggregate c = .ok tc → c.call = .table table types rows name args →
    ∃ as, tc.aggregateCallArgs = .ok as ∧
      ∀ (j : Nat) tn cn (i : Nat), args[j]? = some (.column tn cn) → WritesInt (cn.drop 3) i →
      ∃ vs T, tc.columns[i]? = some (vs, T) ∧
        as[j]? = some (.expr (.fieldRef .rootReference (.seg (.structField (Int32.ofInt i) .nil)) T))

/-- the arguments of a call with a table -/
theorem tableArgs_ok {x : TcExt} {table : String} {cols : List (List Lit × Option Ty)} {g : TcTableArg} {a a' : AggArg}
    (h : visitQualifiedArg x g = .ok a) (h' : tableArg table cols a = .ok a') :
    (∃ c b, g = .scalar c ∧ a' = ⟨some b, "", [], none, 0, true⟩ ∧ visitArgument x c = .ok b) ∨
    ∃ tn n i col, g = .column tn n ∧ (tn = "" ∨ tn = table) ∧ WritesInt (n.drop 3) i ∧ 0 ≤ i ∧
      Res.index cols (Int32.ofInt i).toInt = .ok col ∧ a' = ⟨none, tn, n, col.2, Int32.ofInt i, false⟩ := by
  cases g with
  | scalar c =>
      simp only [visitQualifiedArg, Res.bind_eq_ok] at h
      obtain ⟨b, h1, h2⟩ := h
      cases h2
      simp [tableArg] at h'
      exact .inl ⟨c, b, rfl, h'.symm, h1⟩
  | column tn n =>
      simp only [visitQualifiedArg] at h
      obtain ⟨i, h3, h4, rfl⟩ := newAggregateArgument_ok h
      unfold tableArg at h'
      split at h'
      · cases h'
      · rename_i hn
        simp only [Bool.false_eq_true, if_false, Res.bind_eq_ok] at h'
        obtain ⟨col, hc, h'⟩ := h'
        cases h'
        refine .inr ⟨tn, n, i, col, rfl, ?_, h3, h4, hc, rfl⟩
        by_cases he : tn = ""
        · exact .inl he
        · simp [he] at hn; exact .inr hn.symm

/-- **C104 (tables), partial.** If the columns are named in their order, column N as argument N, the arguments
of the call refer to the columns named, with their types, and scalar arguments are the literals.
Missing: for other orders see `C104_negation`. -/
theorem C104_table_partial (x : TcExt) (uri desc : String) (c : TcCase) (tc : TestCase) (table : String)
    (types : List TcType) (rows : List (List TcLit)) (name : String) (args : List TcTableArg)
    (h : visitTestCase x uri desc .aggregate c = .ok tc) (hc : c.call = .table table types rows name args)
    (hord : ∀ (j : Nat) tn cn (i : ℤ), args[j]? = some (.column tn cn) → WritesInt (cn.drop 3) i → i = j)
    (hlen : args.length < 2 ^ 31) :
    ∃ as, tc.aggregateCallArgs = .ok as ∧
      (∀ (j : Nat) tn cn, args[j]? = some (.column tn cn) → ∃ vs T, tc.columns[j]? = some (vs, T) ∧
        as[j]? = some (.expr (.fieldRef .rootReference (.seg (.structField (Int32.ofInt j) .nil)) T))) ∧
      ∀ (j : Nat) g, args[j]? = some (.scalar g) → ∃ b, visitArgument x g = .ok b ∧ as[j]? = some b.value.toArg := by
  simp only [visitTestCase, hc, visitCall, Res.bind_eq_ok] at h
  obtain ⟨p, ⟨vals, -, ts, -, cols, -, as1, h4, as2, h5, h6⟩, r, -, h⟩ := h
  cases h6
  cases h
  have hsmall : ∀ j : Nat, j < args.length → (Int32.ofInt (j : ℤ)).toInt = j := fun j hj =>
    toInt_ofInt_small ⟨by omega, by omega⟩
  have hl2 : as2.length = args.length := by rw [mapL_length h5, mapL_length h4]
  have key : ∀ (j : Nat) (a : AggArg), as2[j]? = some a →
      (∃ c b, args[j]? = some (.scalar c) ∧ a = ⟨some b, "", [], none, 0, true⟩ ∧ visitArgument x c = .ok b) ∨
      ∃ tn n col, args[j]? = some (.column tn n) ∧ cols[j]? = some col ∧
        a = ⟨none, tn, n, col.2, Int32.ofInt j, false⟩ := by
    intro j a ha
    have hj : j < args.length := hl2 ▸ (List.getElem?_eq_some_iff.1 ha).1
    have hg : args[j]? = some args[j] := by simp [hj]
    obtain ⟨a1, ha1, hv⟩ := mapL_get h4 hg
    obtain ⟨a2, ha2, hv2⟩ := mapL_get h5 ha1
    rw [ha] at ha2
    cases ha2
    rcases tableArgs_ok hv hv2 with ⟨c, b, e, rfl, hb⟩ | ⟨tn, n, i, col, e, -, hi, -, hcol, rfl⟩
    · exact .inl ⟨c, b, by rw [hg, e], rfl, hb⟩
    · have := hord j tn n i (by rw [hg, e]) hi
      subst this
      rw [hsmall j hj, index_nat] at hcol
      exact .inr ⟨tn, n, col, by rw [hg, e], hcol, rfl⟩
  obtain ⟨as, has, hall⟩ := aggregateCallArgs_ordered
    (tc := ⟨uri, desc, name, [], as2, r, c.options.map visitFuncOptions, cols, table, .aggregate⟩)
    (by
      intro j a ha hf
      have hj : j < args.length := hl2 ▸ (List.getElem?_eq_some_iff.1 ha).1
      rcases key j a ha with ⟨_, _, _, rfl, _⟩ | ⟨_, _, _, _, _, rfl⟩
      · cases hf
      · exact hsmall j hj)
    (by
      intro a ha hf
      obtain ⟨j, hj⟩ := List.mem_iff_getElem?.1 ha
      rcases key j a hj with ⟨_, _, _, rfl, _⟩ | ⟨_, _, _, _, _, rfl⟩
      · simp
      · cases hf)
  have exists_arg : ∀ (j : Nat) g, args[j]? = some g → ∃ a, as2[j]? = some a := by
    intro j g hg
    have := (List.getElem?_eq_some_iff.1 hg).1
    exact ⟨as2[j]'(by omega), by simp [hl2, this]⟩
  refine ⟨as, has, fun j tn cn hj => ?_, fun j g hj => ?_⟩
  · obtain ⟨a, ha⟩ := exists_arg j _ hj
    rcases key j a ha with ⟨_, _, e, rfl, _⟩ | ⟨_, _, ⟨vs, T⟩, e, hcol, rfl⟩
    · rw [hj] at e; cases e
    · exact ⟨vs, T, hcol, (hall j _ ha).2 rfl⟩
  · obtain ⟨a, ha⟩ := exists_arg j _ hj
    rcases key j a ha with ⟨_, b, e, rfl, hb⟩ | ⟨_, _, _, e, _, rfl⟩
    · rw [hj] at e
      cases e
      obtain ⟨c', hc', has'⟩ := (hall j _ ha).1 rfl
      cases hc'
      exact ⟨b, hb, has'⟩
    · rw [hj] at e; cases e

/-- **C104 (compact calls), partial.** The same for `(rows) f(col0::type0, ..)`: the types are those written. -/
theorem C104_compact_partial (x : TcExt) (uri desc : String) (c : TcCase) (tc : TestCase)
    (rows : List (List TcLit)) (name : String) (args : List TcColArg)
    (h : visitTestCase x uri desc .aggregate c = .ok tc) (hc : c.call = .compact rows name args)
    (hord : ∀ (j : Nat) cn tr (i : ℤ), args[j]? = some (.column cn tr) → WritesInt (cn.drop 3) i → i = j)
    (hlen : args.length < 2 ^ 31) :
    ∃ as, tc.aggregateCallArgs = .ok as ∧
      ∀ (j : Nat) cn tr, args[j]? = some (.column cn tr) → ∃ t, tcType tr = .ok t ∧
        as[j]? = some (.expr (.fieldRef .rootReference (.seg (.structField (Int32.ofInt j) .nil)) (some t))) := by
  simp only [visitTestCase, hc, visitCall, Res.bind_eq_ok] at h
  obtain ⟨p, ⟨vals, -, as2, h2, row, -, ts, -, cols, -, h6⟩, r, -, h⟩ := h
  cases h6
  cases h
  have hl2 : as2.length = args.length := mapL_length h2
  have hsmall : ∀ j : Nat, j < args.length → (Int32.ofInt (j : ℤ)).toInt = j := fun j hj =>
    toInt_ofInt_small ⟨by omega, by omega⟩
  have key : ∀ (j : Nat) (a : AggArg), as2[j]? = some a →
      (∃ c b, args[j]? = some (.scalar c) ∧ a = ⟨some b, "", [], none, 0, true⟩) ∨
      ∃ n tr t, args[j]? = some (.column n tr) ∧ tcType tr = .ok t ∧
        a = ⟨none, "", n, some t, Int32.ofInt j, false⟩ := by
    intro j a ha
    have hj : j < args.length := hl2 ▸ (List.getElem?_eq_some_iff.1 ha).1
    have hg : args[j]? = some args[j] := by simp [hj]
    obtain ⟨a1, ha1, hv⟩ := mapL_get h2 hg
    rw [ha] at ha1
    cases ha1
    rcases compactArg_ok hv with ⟨c, b, e, rfl, -⟩ | ⟨n, tr, t, i, e, ht, hi, -, rfl⟩
    · exact .inl ⟨c, b, by rw [hg, e], rfl⟩
    · have := hord j n tr i (by rw [hg, e]) hi
      subst this
      exact .inr ⟨n, tr, t, by rw [hg, e], ht, rfl⟩
  obtain ⟨as, has, hall⟩ := aggregateCallArgs_ordered
    (tc := ⟨uri, desc, name, [], as2, r, c.options.map visitFuncOptions, cols, "", .aggregate⟩)
    (by
      intro j a ha hf
      have hj : j < args.length := hl2 ▸ (List.getElem?_eq_some_iff.1 ha).1
      rcases key j a ha with ⟨_, _, _, rfl⟩ | ⟨_, _, _, _, _, rfl⟩
      · cases hf
      · exact hsmall j hj)
    (by
      intro a ha hf
      obtain ⟨j, hj⟩ := List.mem_iff_getElem?.1 ha
      rcases key j a hj with ⟨_, _, _, rfl⟩ | ⟨_, _, _, _, _, rfl⟩
      · simp
      · cases hf)
  refine ⟨as, has, fun j cn tr hj => ?_⟩
  have hj' := (List.getElem?_eq_some_iff.1 hj).1
  have ha : as2[j]? = some (as2[j]'(by omega)) := by simp [hl2, hj']
  rcases key j _ ha with ⟨_, _, e, _⟩ | ⟨_, _, t, e, ht, ea⟩
  · rw [hj] at e; cases e
  · rw [hj] at e
    cases e
    refine ⟨t, ht, ?_⟩
    have := (hall j _ ha).2 (by rw [ea])
    rw [this, ea]

/-- **C104 (single columns).** The call of `f((..)::type)` has one argument, the field 0 with the type of the
column. -/
theorem C104_column (x : TcExt) (uri desc : String) (c : TcCase) (tc : TestCase) (name : String)
    (cells : List TcLit) (tr : TcType) (h : visitTestCase x uri desc .aggregate c = .ok tc)
    (hc : c.call = .column name cells tr) :
    ∃ T v, visitDataColumn x cells tr = .ok ⟨T, v⟩ ∧ tc.aggregateCallArgs =
      .ok [.expr (.fieldRef .rootReference (.seg (.structField 0 .nil)) (some T))] := by
  simp only [visitTestCase, hc, visitCall, Res.bind_eq_ok] at h
  obtain ⟨p, ⟨cl, hcl, hp⟩, r, -, h⟩ := h
  cases hp
  cases h
  exact ⟨cl.type, cl.value, hcl, rfl⟩

/-- The hypotheses are met. -/
example (x : TcExt) : ∃ tc, visitTestCase x "u" "d" .aggregate
    ⟨.column "f" [.numeric [49], .null] (.prim .i32 false), none, .undefined⟩ = .ok tc ∧
    tc.aggregateCallArgs =
      .ok [.expr (.fieldRef .rootReference (.seg (.structField 0 .nil)) (some (.prim .i32 1 0)))] := ⟨_, rfl, rfl⟩
example : ∀ (j : Nat) tn cn (i : ℤ), ([.column "t1" (colName [48])] : List TcTableArg)[j]? = some (.column tn cn) →
    WritesInt (cn.drop 3) i → i = j := by
  intro j tn cn i h hi
  cases j with
  | zero =>
      cases h
      exact hi.unique ⟨[48], ⟨by simp, by unfold Digits; decide⟩, .inl ⟨.inl rfl, by decide⟩⟩
  | succ j => simp at h

/-- `DEFINE t1(i32, string) = ((1, 'a')) f(t1.col1, t1.col0)` -/
def exSwapped : TcCall :=
  .table "t1" [.prim .i32 false, .prim .string false] [[.numeric [49], .string [39, 97, 39]]] "f"
    [.column "t1" (colName [49]), .column "t1" (colName [48])]

/-- **C104 is false of the code**: the types are looked up by the position of the argument, not by the
column; in `f(t1.col1, t1.col0)` the reference to column 1, which has strings, gets the type `i32`. -/
theorem C104_negation : ¬ C104_statement := by
  intro h
  obtain ⟨tc, h1, h2⟩ : ∃ tc, visitTestCase noTcExt "u" "d" .aggregate ⟨exSwapped, none, .undefined⟩ = .ok tc ∧
    (∃ vs, tc.columns[1]? = some (vs, some (.prim .string 2 0))) ∧ tc.aggregateCallArgs = .ok
      [.expr (.fieldRef .rootReference (.seg (.structField 1 .nil)) (some (.prim .i32 2 0))),
       .expr (.fieldRef .rootReference (.seg (.structField 0 .nil)) (some (.prim .string 2 0)))] :=
    ⟨_, rfl, ⟨_, rfl⟩, rfl⟩
  obtain ⟨⟨vs, h3⟩, h4⟩ := h2
  obtain ⟨as, has, hall⟩ := h _ _ _ _ _ _ _ _ _ _ h1 rfl
  obtain ⟨vs', T, h5, h6⟩ := hall 0 "t1" (colName [49]) 1 rfl
    ⟨[49], ⟨by simp, by unfold Digits; decide⟩, .inl ⟨.inl rfl, by decide⟩⟩
  rw [h3] at h5
  cases h5
  rw [h4] at has
  cases has
  cases h6

/-- A call that names only column 1 is refused, with every collection and every set. -/
theorem C104_negation_refused (x : TcExt) (c : Collection) (s : ExtSet) (fs : List Variant)
    (opts : List (String × String)) :
    ∃ tc, visitTestCase x "u" "d" .aggregate ⟨.compact [[.numeric [49], .numeric [50]]] "f"
      [.column (colName [49]) (.prim .i32 false)], none, .undefined⟩ = .ok tc ∧
    tc.aggregateInvocation c s fs opts = .err := ⟨_, rfl, rfl⟩

/-- `col4294967296` is column 0. -/
theorem C104_negation_wraps (x : TcExt) : ∃ p, visitCall x (.compact [[.numeric [49]]] "f"
      [.column (colName [52, 50, 57, 52, 57, 54, 55, 50, 57, 54]) (.prim .i32 false)]) = .ok p ∧
    p.aggregateArgs.map (·.columnIndex) = [0] := ⟨_, rfl, by decide⟩

/-! ## C105: the function that is called -/

/-- **C105 (extension).** The file `/extensions/name.yaml` of a test stands for the extension
`extension:io.substrait:name`; what does not begin with `/` is taken as it is. -/
theorem C105_urn (tc : TestCase) (n : String) :
    (tc.baseURI = "/extensions/" ++ n ++ ".yaml" → tc.urn = "extension:io.substrait:" ++ n) ∧
    (tc.baseURI = n → n.toList.head? ≠ some '/' → tc.urn = n) := by
  constructor
  · intro h
    have hl : tc.baseURI.toList = "/extensions/".toList ++ n.toList ++ ".yaml".toList := by
      rw [h, String.toList_append, String.toList_append]
    have h1 : "/".toList.isPrefixOf tc.baseURI.toList = true := by rw [hl]; rfl
    have h2 : trimPrefix "/extensions/".toList tc.baseURI.toList = n.toList ++ ".yaml".toList := by
      unfold trimPrefix
      rw [hl, List.append_assoc, if_pos (List.isPrefixOf_iff_prefix.2 (List.prefix_append _ _)), List.drop_left]
    have h3 : trimSuffix ".yaml".toList (n.toList ++ ".yaml".toList) = n.toList := by
      unfold trimSuffix
      rw [if_pos (List.isSuffixOf_iff_suffix.2 (List.suffix_append _ _)), List.length_append, Nat.add_sub_cancel,
        List.take_left]
    rw [TestCase.urn, if_pos h1, h2, h3, String.ofList_toList]
  · intro h hn
    have h1 : ¬ "/".toList.isPrefixOf tc.baseURI.toList = true := by
      rw [h]
      intro hp
      apply hn
      obtain ⟨t, ht⟩ := List.isPrefixOf_iff_prefix.1 hp
      rw [← ht]
      rfl
    rw [TestCase.urn, if_neg h1, h]

/-- **C105 (scalar functions).** The call built from a test case of a scalar function calls an implementation,
registered for the extension and the name of the test, whose parameters accept the types of the
arguments; the arguments are those of the test and the options have one preference each. -/
theorem C105_scalar (c : Collection) (s s' : ExtSet) (fs : List Variant) (opts : List (String × String))
    (tc : TestCase) (e : Expr) (hc : c.Reachable) (hs : s.Tidy)
    (h : tc.scalarInvocation c s fs opts = .ok (e, s')) :
    ∃ a v sig, e = .scalar a (tc.args.map (·.value.toArg)) ∧ a.options = opts.map (fun o => (o.1, [o.2])) ∧
      CallsImpl c .scalar s' ⟨tc.urn, a.declaration⟩ (tc.args.map (·.value.toArg)) a v ∧
      a.declaration = tc.funcName ++ ":" ++ sig := by
  unfold TestCase.scalarInvocation at h
  split at h
  · cases h
  rw [Res.bind_eq_ok] at h
  obtain ⟨id, hid, h⟩ := h
  obtain ⟨id', h1, h2, sig, h3⟩ := callOrMatch_ok hid h
  obtain ⟨a, v, rfl, g2, g3⟩ := C84_scalar_partial c s s' id' _ _ e hc hs (by
    intro g hg
    obtain ⟨cl, -, rfl⟩ := List.mem_map.1 hg
    exact toArg_isValue _) h1
  obtain ⟨sig', hsig⟩ := nameOf_compound (h3 ▸ g3.name)
  refine ⟨a, v, sig', rfl, g2, ⟨g3.compound, g3.registered, g3.urn.trans h2, .inl rfl, g3.reference, g3.types⟩, hsig⟩

/-- **C105 (aggregate functions).** The same for aggregate functions; the call is for all values, in one step
from input to result, without sort fields. -/
theorem C105_aggregate (c : Collection) (s s' : ExtSet) (fs : List Variant) (opts : List (String × String))
    (tc : TestCase) (f : AggFn) (hc : c.Reachable) (hs : s.Tidy)
    (h : tc.aggregateInvocation c s fs opts = .ok (f, s')) :
    tc.aggregateCallArgs = .ok f.args ∧ f.invocation = 1 ∧ f.phase = 3 ∧ f.sorts = [] ∧
    f.a.options = opts.map (fun o => (o.1, [o.2])) ∧ ∃ v sig,
      CallsImpl c .aggregate s' ⟨tc.urn, f.a.declaration⟩ f.args f.a v ∧
      f.a.declaration = tc.funcName ++ ":" ++ sig := by
  unfold TestCase.aggregateInvocation at h
  split at h
  · cases h
  simp only [Res.bind_eq_ok] at h
  obtain ⟨id, hid, as, has, h⟩ := h
  obtain ⟨id', h1, h2, sig, h3⟩ := callOrMatch_ok hid h
  obtain ⟨rfl, g1, g2, g4, g5, v, g3⟩ := C84_aggregate_partial c s s' id' _ _ _ _ _ f hc hs
    (aggregateCallArgs_values has) h1
  obtain ⟨sig', hsig⟩ := nameOf_compound (h3 ▸ g3.name)
  exact ⟨has, g2, g1, g4, g5, v, sig', ⟨g3.compound, g3.registered, g3.urn.trans h2, .inl rfl, g3.reference,
    g3.types⟩, hsig⟩

/-- **C105 (which one), scalar functions.** The function with exactly the types of the arguments in its name is
called if that is possible. Otherwise it is the first function of the registry with the name and the
number of arguments that belongs to the extension and accepts the types. -/
theorem C105_which (c : Collection) (s : ExtSet) (fs : List Variant) (opts : List (String × String))
    (tc : TestCase) (r : Expr × ExtSet) (h : tc.scalarInvocation c s fs opts = .ok r) :
    ∃ exact, exact = (⟨tc.urn, tc.funcName ++ ":" ++ "_".intercalate (tc.args.map (·.type.shortString))⟩ : ExtId) ∧
    (newScalarFunc c s exact (functionOptions opts) (tc.args.map (·.value.toArg)) = .ok r ∨
     newScalarFunc c s exact (functionOptions opts) (tc.args.map (·.value.toArg)) = .err ∧
     ∃ pre v post id, fs = pre ++ v :: post ∧ v.id = .ok id ∧ id.urn = tc.urn ∧ v.name = tc.funcName ∧
      v.TakesCount tc.args.length ∧
      (∃ after, matchArguments v.impl.nullability v.impl.args v.impl.variadic (tc.args.map (·.type)) =
        .ok (true, after)) ∧
      newScalarFunc c s id (functionOptions opts) (tc.args.map (·.value.toArg)) = .ok r ∧
      ∀ w ∈ pre, w.name = tc.funcName → w.TakesCount tc.args.length → w.urn = tc.urn → ∀ after,
        matchArguments w.impl.nullability w.impl.args w.impl.variadic (tc.args.map (·.type)) ≠ .ok (true, after)) := by
  unfold TestCase.scalarInvocation at h
  split at h
  · cases h
  rename_i hk
  simp only [ne_eq, Decidable.not_not] at hk
  rw [Res.bind_eq_ok] at h
  obtain ⟨id, hid, h⟩ := h
  have hts : someTypes tc.argTypes = .ok (tc.args.map (·.type)) := by
    unfold someTypes TestCase.argTypes
    rw [hk]
    simp only
    rw [mapL_forall₂]
    induction tc.args with
    | nil => exact .nil
    | cons a as ih => exact .cons rfl ih
  have hid' : id = ⟨tc.urn, tc.funcName ++ ":" ++ "_".intercalate (tc.args.map (·.type.shortString))⟩ := by
    simp only [TestCase.id, hts, Res.ok_bind, List.map_map] at hid
    cases hid
    rfl
  refine ⟨id, hid', ?_⟩
  unfold callOrMatch at h
  simp only at h
  split at h
  · rename_i a ha
    cases h
    exact .inl ha
  · cases h
  · rename_i he
    refine .inr ⟨he, ?_⟩
    rw [hts, Res.ok_bind] at h
    obtain ⟨pre, v, post, id', hvs, h1, h2, h3, h4, h5⟩ := firstMatch_ok h
    obtain ⟨l1, l2, hfs, hl1, hl2⟩ := List.filter_eq_append_iff.1 hvs
    obtain ⟨m1, m2, hl2', hm1, hm2, hm3⟩ := List.filter_eq_cons_iff.1 hl2
    have serves_iff : ∀ w : Variant, w.serves tc.funcName (tc.args.map (·.value.toArg)).length = true ↔
        w.name = tc.funcName ∧ w.TakesCount tc.args.length := by
      intro w
      simp only [Variant.serves, Variant.TakesCount, Bool.and_eq_true, decide_eq_true_eq, Bool.or_eq_true,
        List.length_map]
      cases w.impl.variadic <;> simp
    obtain ⟨hn, hcount⟩ := (serves_iff v).1 hm2
    refine ⟨l1 ++ m1, v, m2, id', by rw [hfs, hl2', List.append_assoc], h1, h2.trans (by rw [hid']), hn, hcount, h4,
      h3, ?_⟩
    intro w hw hwn hwc hwu
    have hws := (serves_iff w).2 ⟨hwn, hwc⟩
    rcases List.mem_append.1 hw with hw | hw
    · exact h5 w (hl1 ▸ List.mem_filter.2 ⟨hw, hws⟩) (by rw [hwu, hid'])
    · exact absurd hws (hm1 w hw)


/-- a test case `f(1::i32) = <!UNDEFINED>` of the extension of `oneCollection` -/
def exScalar : TestCase :=
  ⟨"extension:acme:f", "g", "f", [⟨.prim .i32 2 0, .lit (.prim (.int32 1) (.prim .i32 2 0))⟩], [], .undefined, none,
    [], "", .scalar⟩

/-- The hypotheses are met. -/
example : ∃ e s', exScalar.scalarInvocation oneCollection .new [] [("o", "p")] = .ok (e, s') ∧
    e.getType = .ok (.prim .i32 2 0) := ⟨_, _, rfl, rfl⟩

/-! ## C106: files -/

/-- **C106.** A file all of whose test cases can be read is accepted, if its groups are of the kind that the
header says. -/
def C106_statement : Prop :=
  ∀ (x : TcExt) (d : TcDoc), d.includes ≠ [] → (∀ g ∈ d.groups, g.kind = d.kind) →
    (∀ g ∈ d.groups, ∀ c ∈ g.cases, ∃ uri desc tc, visitTestCase x uri desc d.kind c = .ok tc) →
    ∃ f, parseTestFile x d = .ok f

theorem visitCall_name {x : TcExt} {c : TcCall} {p : CallParts} (h : visitCall x c = .ok p) : p.funcName = c.name := by
  cases c <;> simp only [visitCall, Res.bind_eq_ok] at h
  · obtain ⟨_, -, h⟩ := h; cases h; rfl
  · obtain ⟨_, -, _, -, _, -, _, -, _, -, h⟩ := h; cases h; rfl
  · obtain ⟨_, -, _, -, _, -, _, -, _, -, h⟩ := h; cases h; rfl
  · obtain ⟨_, -, h⟩ := h; cases h; rfl

/-- whether a test case does not depend on where it stands -/
theorem visitTestCase_ok {x : TcExt} {uri desc : String} {k : TestFuncType} {c : TcCase} {tc : TestCase} :
    visitTestCase x uri desc k c = .ok tc ↔ ∃ p r, visitCall x c.call = .ok p ∧ visitResult x c.result = .ok r ∧
      tc = ⟨uri, desc, p.funcName, p.args, p.aggregateArgs, r, c.options.map visitFuncOptions, p.columns,
        p.tableName, k⟩ := by
  simp only [visitTestCase, Res.bind_eq_ok, Res.ok.injEq]
  constructor
  · rintro ⟨p, hp, r, hr, rfl⟩; exact ⟨p, r, hp, hr, rfl⟩
  · rintro ⟨p, r, hp, hr, rfl⟩; exact ⟨p, hp, r, hr, rfl⟩

/-- **C106 (contents).** The test cases of a file that is accepted are those written in it, one by one and in
order. Each has the extension file that is included first, the description of its group, the kind of
the file, and the function name written; all groups have a description and are of the kind of the file. -/
theorem C106_contents (x : TcExt) (d : TcDoc) (f : TestFile) (h : parseTestFile x d = .ok f) :
    f.version = d.version ∧ f.kind = d.kind ∧
    (∀ g ∈ d.groups, g.kind = d.kind ∧ g.description ≠ none) ∧
    ∃ inc, d.includes.head? = some inc ∧ f.includedURI = bytesText (rawString inc) ∧
    List.Forall₂ (fun (w : Option String × TcCase) tc => w.1 = some tc.groupDesc ∧ tc.baseURI = f.includedURI ∧
      tc.funcType = d.kind ∧ tc.funcName = w.2.call.name ∧
      visitTestCase x tc.baseURI tc.groupDesc tc.funcType w.2 = .ok tc) d.allCases f.testCases := by
  have hv : visitDoc x d = .ok f := by
    unfold parseTestFile at h
    split at h
    · cases h; assumption
    · cases h
    · cases h
  simp only [visitDoc, Res.bind_eq_ok] at hv
  obtain ⟨inc, h1, css, h2, h3⟩ := hv
  cases h3
  rw [mapL_forall₂] at h2
  have hg : ∀ g cs, visitTestGroup x (bytesText (rawString inc)) d.kind g = .ok cs →
      (g.kind = d.kind ∧ g.description ≠ none) ∧ List.Forall₂ (fun (w : Option String × TcCase) tc =>
        w.1 = some tc.groupDesc ∧ tc.baseURI = bytesText (rawString inc) ∧
        tc.funcType = d.kind ∧ tc.funcName = w.2.call.name ∧
        visitTestCase x tc.baseURI tc.groupDesc tc.funcType w.2 = .ok tc)
        (g.cases.map fun c => (g.description, c)) cs := by
    intro g cs hcs
    unfold visitTestGroup at hcs
    split at hcs
    · cases hcs
    · rename_i desc hdesc
      split at hcs
      · cases hcs
      · rename_i hk
        simp only [ne_eq, Decidable.not_not] at hk
        refine ⟨⟨hk.symm, by simp [hdesc]⟩, ?_⟩
        rw [mapL_forall₂] at hcs
        rw [List.forall₂_map_left_iff]
        refine hcs.imp ?_
        intro c tc htc
        obtain ⟨p, r, hp, hr, rfl⟩ := visitTestCase_ok.1 htc
        exact ⟨hdesc, rfl, hk.symm, visitCall_name hp, htc⟩
  refine ⟨rfl, rfl, ?_, inc, ?_, rfl, ?_⟩
  · intro g hgm
    obtain ⟨j, hj⟩ := List.mem_iff_getElem?.1 hgm
    obtain ⟨cs, -, hcs⟩ := mapL_get (mapL_forall₂.2 h2) hj
    exact (hg g cs hcs).1
  · rw [List.head?_eq_getElem?]
    exact index_nat.1 h1
  · unfold TcDoc.allCases
    simp only
    generalize d.groups = gs at h2
    clear h1 h
    induction h2 with
    | nil => exact .nil
    | cons hh _ ih =>
        rw [List.flatMap_cons, List.flatten_cons]
        exact List.rel_append (hg _ _ hh).2 ih

/-- Reading a file never panics. -/
theorem C106_total (x : TcExt) (d : TcDoc) : parseTestFile x d ≠ .panic := by
  unfold parseTestFile
  split <;> simp

/-- **C106 (accepted), partial.** ... if moreover every group has a description. -/
theorem C106_accepted_partial (x : TcExt) (d : TcDoc) (hi : d.includes ≠ []) (hk : ∀ g ∈ d.groups, g.kind = d.kind)
    (hd : ∀ g ∈ d.groups, g.description ≠ none)
    (hc : ∀ g ∈ d.groups, ∀ c ∈ g.cases, ∃ uri desc tc, visitTestCase x uri desc d.kind c = .ok tc) :
    ∃ f, parseTestFile x d = .ok f := by
  obtain ⟨inc, rest, hinc⟩ := List.exists_cons_of_ne_nil hi
  obtain ⟨css, hcss⟩ : ∃ css, Res.mapL (visitTestGroup x (bytesText (rawString inc)) d.kind) d.groups = .ok css := by
    refine mapL_total fun g hg => ?_
    unfold visitTestGroup
    cases hdesc : g.description with
    | none => exact absurd hdesc (hd g hg)
    | some desc =>
        simp only
        rw [if_neg (by simp [hk g hg])]
        refine mapL_total fun c hcg => ?_
        obtain ⟨uri, desc', tc, htc⟩ := hc g hg c hcg
        obtain ⟨p, r, hp, hr, -⟩ := visitTestCase_ok.1 htc
        exact ⟨_, visitTestCase_ok.2 ⟨p, r, hp, hr, rfl⟩⟩
  have hidx : Res.index d.includes 0 = .ok inc := by rw [hinc]; rfl
  have : visitDoc x d = .ok ⟨d.version, d.kind, bytesText (rawString inc), css.flatten⟩ := by
    simp only [visitDoc, hidx, Res.ok_bind, hcss]
  exact ⟨_, by rw [parseTestFile, this]⟩

/-- a file with one group of one test case, with or without a description -/
def exDoc (desc : Option String) : TcDoc :=
  ⟨.scalar, "v1.0", [[39, 97, 39]], [⟨.scalar, desc, [⟨.scalar "f" [.int .i8 false [49]], some [("o", "p")], .undefined⟩]⟩]⟩

/-- The hypotheses are met. -/
example (x : TcExt) : ∃ f, parseTestFile x (exDoc (some "basic")) = .ok f ∧
    f.testCases.map (·.funcName) = ["f"] ∧ f.testCases.map (·.baseURI) = ["a"] := ⟨_, rfl, rfl, rfl⟩

/-- **C106 is false of the code**: a group without a description, which the grammar allows, makes the file
unreadable. -/
theorem C106_negation : ¬ C106_statement := by
  intro h
  obtain ⟨f, hf⟩ := h noTcExt (exDoc none) (by simp [exDoc]) (by simp [exDoc]) (by
    intro g hg c hc
    simp only [exDoc, List.mem_singleton] at hg
    subst hg
    simp only [List.mem_singleton] at hc
    subst hc
    exact ⟨"", "", _, rfl⟩)
  cases hf

/-- **C106 (options).** An option of a test case has the value written last for it. -/
theorem C106_options (x : TcExt) (uri desc : String) (k : TestFuncType) (c : TcCase) (tc : TestCase)
    (opts : List (String × String)) (h : visitTestCase x uri desc k c = .ok tc) (ho : c.options = some opts) :
    ∃ m, tc.options = some m ∧ ∀ n v, m.get n = some v ↔
      ∃ pre post, opts = pre ++ (n, v) :: post ∧ ∀ o ∈ post, o.1 ≠ n := by
  obtain ⟨p, r, -, -, rfl⟩ := visitTestCase_ok.1 h
  refine ⟨visitFuncOptions opts, by simp [ho], ?_⟩
  clear h ho
  induction opts using List.reverseRecOn with
  | nil => intro n v; simp [visitFuncOptions]
  | append_singleton opts o ih =>
      intro n v
      obtain ⟨n', v'⟩ := o
      have : visitFuncOptions (opts ++ [(n', v')]) = (visitFuncOptions opts).set n' v' := by
        simp [visitFuncOptions, List.foldl_append]
      rw [this, GoMap.get_set]
      split
      · rename_i he
        subst he
        constructor
        · intro hv
          cases hv
          exact ⟨opts, [], rfl, by simp⟩
        · rintro ⟨pre, post, he, hp⟩
          rcases List.eq_nil_or_concat post with rfl | ⟨post', o, rfl⟩
          · have := List.append_inj_right' he rfl
            cases this; rfl
          · rw [List.concat_eq_append, ← List.cons_append, ← List.append_assoc] at he
            have := List.append_inj_right' he rfl
            cases this
            exact absurd rfl (hp (n, v') (by simp))
      · rename_i he
        rw [ih]
        constructor
        · rintro ⟨pre, post, rfl, hp⟩
          refine ⟨pre, post ++ [(n', v')], by simp, ?_⟩
          intro o ho
          rcases List.mem_append.1 ho with ho | ho
          · exact hp o ho
          · rw [List.mem_singleton] at ho; subst ho; exact fun e => he e.symm
        · rintro ⟨pre, post, hpp, hp⟩
          rcases List.eq_nil_or_concat post with rfl | ⟨post', o, rfl⟩
          · have := List.append_inj_right' hpp rfl
            cases this
            exact absurd rfl he
          · rw [List.concat_eq_append, ← List.cons_append, ← List.append_assoc] at hpp
            exact ⟨pre, post', List.append_inj_left' hpp rfl, fun o ho => hp o (by simp [ho])⟩

/-- The hypotheses are met. -/
example (x : TcExt) : ∃ tc, visitTestCase x "u" "d" .scalar
    ⟨.scalar "f" [], some [("o", "p"), ("o", "q")], .undefined⟩ = .ok tc := ⟨_, rfl⟩

end Verif
