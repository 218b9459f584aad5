import Verif.Lemmas.TestCase
import Verif.Props.Decimal
/-!
# Properties of function test files: values and types (C99-C102)

Everything external (time texts, floats, decimal texts) is the parameter `x`, about which nothing is
assumed unless stated.
-/

namespace Verif

/-! ## C99: integers -/

/-- **C99.** An integer argument that is accepted has the value that is written. -/
def C99_statement : Prop :=
  ∀ (x : TcExt) (k : Prim) (q : Bool) (s : Bytes) (c : CaseLit),
    visitTypedArgument x (.int k q s) = .ok c →
    ∃ i l, WritesInt s i ∧ c.value = .lit l ∧ l.integer = some i

/-- **C99 (within range), partial.** An integer that belongs to its type is read exactly, with that type.
Missing: other integers are not refused (`C99_negation`). -/
theorem C99_exact_partial (x : TcExt) (k : Prim) (q : Bool) (s : Bytes) (i : ℤ) (hs : WritesInt s i)
    (hk : k.Holds i) :
    ∃ l, visitTypedArgument x (.int k q s) = .ok ⟨.prim k (mark q) 0, .lit l⟩ ∧
      l.integer = some i ∧ l.getType = .ok (.prim k (mark q) 0) := by
  obtain ⟨l, h1, h2, h3⟩ := getIntLiteral_of (q := q) hs hk
  refine ⟨l, ?_, h3, h2⟩
  simp only [visitTypedArgument, visitArgument, tcType, Res.ok_bind, mark_eq, h1]
  rfl

/-- **C99 (what happens otherwise), partial.** Texts that are no integer or do not fit 64 bits are refused,
and what is accepted differs from what is written by a multiple of the size of the type. -/
theorem C99_accepted_partial (x : TcExt) (k : Prim) (q : Bool) (s : Bytes) (c : CaseLit)
    (h : visitTypedArgument x (.int k q s) = .ok c) :
    ∃ i j l, WritesInt s i ∧ IsInt64 i ∧ c.value = .lit l ∧ l.integer = some j ∧ k.Holds j ∧
      k.span ∣ j - i := by
  simp only [visitTypedArgument, visitArgument, tcType, Res.ok_bind, Res.bind_eq_ok] at h
  obtain ⟨c', ⟨l, hl, h1⟩, h2⟩ := h
  cases h1; cases h2
  obtain ⟨i, j, h1, h2, h3, h4, h5, -⟩ := getIntLiteral_ok hl
  exact ⟨i, j, l, h1, h2, rfl, h3, h5, h4⟩

/-- **C99 is false of the code**: `300::i8` is read as 44. -/
theorem C99_negation : ¬ C99_statement := by
  intro h
  let x : TcExt := ⟨fun _ => .err, fun _ => .err, fun _ => .err, fun _ => 0, fun _ => .err, fun _ => (0, 0, 0)⟩
  have h44 : visitTypedArgument x (.int .i8 false [51, 48, 48]) =
      .ok ⟨.prim .i8 2 0, .lit (.prim (.int8 44) (.prim .i8 2 0))⟩ := by rfl
  obtain ⟨i, l, hs, hv, hi⟩ := h x .i8 false [51, 48, 48] _ h44
  cases hv
  have h300 : WritesInt [51, 48, 48] 300 :=
    ⟨[51, 48, 48], ⟨by simp, by unfold Digits; decide⟩, Or.inl ⟨Or.inl rfl, by decide⟩⟩
  rw [← h300.unique hs] at hi
  simp only [Lit.integer, Option.some.injEq] at hi
  exact absurd hi (by decide)

/-- **C99 is false of the code** (numbers in types): `fixedchar<4294967298>` is `fixedchar<2>`. -/
theorem C99_negation_parameter :
    ∃ (tr : TcType) (t : Ty), tcType tr = .ok t ∧ t = .fixed .fixedChar 2 0 2 ∧ ¬ tr.Means t := by
  refine ⟨.fixed .fixedChar false [52, 50, 57, 52, 57, 54, 55, 50, 57, 56], .fixed .fixedChar 2 0 2,
    rfl, rfl, ?_⟩
  rintro ⟨l, hl, h⟩
  cases h
  have hb : WritesInt [52, 50, 57, 52, 57, 54, 55, 50, 57, 56] 4294967298 :=
    ⟨_, ⟨by simp, by unfold Digits; decide⟩, Or.inl ⟨Or.inl rfl, by decide⟩⟩
  have := hb.unique hl
  revert this; decide

/-- non-vacuity: `-128` belongs to `i8` -/
example : WritesInt [45, 49, 50, 56] (-128) ∧ Prim.Holds .i8 (-128) :=
  ⟨⟨[49, 50, 56], ⟨by simp, by unfold Digits; decide⟩, Or.inr ⟨rfl, by decide⟩⟩,
    by unfold Prim.Holds; decide⟩

/-! ## C100: declared types -/

/-- **C100.** An argument or result that is accepted is a literal of the type written behind it, and its value
belongs to that type. -/
def C100_statement : Prop :=
  ∀ (x : TcExt) (a : TcArg) (tr : TcType) (c : CaseLit), visitTypedArgument x a = .ok c →
    a.declared = some tr →
    tr.Means c.type ∧ ∃ l, c.value = .lit l ∧ l.getType = .ok c.type ∧
      ∀ v, l.value = some v → v.Fits c.type

/-- **C100 (literal).** The literal has exactly the type recorded for the argument, whatever the argument is. -/
theorem C100_literal (x : TcExt) (a : TcArg) (c : CaseLit) (h : visitTypedArgument x a = .ok c) (l : Lit)
    (hl : c.value = .lit l) : l.getType = .ok c.type := by
  unfold visitTypedArgument at h
  rw [Res.bind_eq_ok] at h
  obtain ⟨c', h1, h2⟩ := h
  exact (updateType_ok h2 (visitArgument_ready h1).1).2 l hl

/-- **C100 (type), partial.** The type is the one written. Missing: numbers in the type beyond 32 bits
(`C99_negation_parameter`) and lists of day-time intervals with a null in them (`C100_negation_interval`). -/
theorem C100_declared_partial (x : TcExt) (a : TcArg) (tr : TcType) (c : CaseLit)
    (h : visitTypedArgument x a = .ok c) (hd : a.declared = some tr) (hs : tr.Small)
    (hn : ¬ a.NullInterval) : tr.Means c.type := by
  unfold visitTypedArgument at h
  rw [Res.bind_eq_ok] at h
  obtain ⟨c', h1, h2⟩ := h
  obtain ⟨hr, ht⟩ := visitArgument_ready h1
  rw [(updateType_ok h2 hr).1]
  exact tcType_means (ht tr hd hn) hs

/-- **C100 (decimals), partial.** An accepted decimal argument has the value of its text and belongs to its
type. -/
theorem C100_decimal_partial (x : TcExt) (q : Bool) (ps : Option (Bytes × Bytes)) (s : Bytes) (c : CaseLit)
    (d : Dec) (hx : x.parseDec s = .ok d) (hd : d.InRange)
    (h : visitTypedArgument x (.decimal q ps s) = .ok c) :
    ∃ l, c.value = .lit l ∧ l.value = some (.number d.value) ∧ (LitValue.number d.value).Fits c.type := by
  unfold visitTypedArgument at h
  simp only [visitArgument, newDecimalFromString, hx, Res.ok_bind, Res.bind_eq_ok] at h
  obtain ⟨c', ⟨t, ht, l0, ⟨⟨b, p, sc⟩, hb, hl⟩, h1⟩, h2⟩ := h
  cases h1
  obtain ⟨hlen, hs0, hsp, hp38, -, hval⟩ := C06_encoding_exact d hd b p sc hb
  simp only [newLiteral] at hl
  rw [if_neg (by simp [hlen])] at hl
  cases hl
  have htake : b.take 16 = b := List.take_of_length_le (by omega)
  rw [htake] at h2
  have htd : ∃ n v a b, t = .decimal n v a b := by
    cases ps with
    | none => cases ht; exact ⟨_, _, _, _, rfl⟩
    | some ps =>
        simp only [tcType, Res.bind_eq_ok] at ht
        obtain ⟨p', hp, s', hs', ht⟩ := ht
        cases ht; exact ⟨_, _, _, _, rfl⟩
  obtain ⟨n, v, ts, tp, rfl⟩ := htd
  simp [CaseLit.updateType, Ty.getParameters, Res.bind_eq_ok] at h2
  obtain ⟨l', h3, h4⟩ := h2
  cases h4
  have hsc : (Int32.ofInt sc).toInt = sc := Int32.toInt_ofInt_of_le (by omega) (by omega)
  have hv : (Lit.proto (.bytes b) (.decimal (getNullability (Ty.isNullable (.decimal n v ts tp))) 0
      (Int32.ofInt sc) (Int32.ofInt p))).value = some (.number d.value) := by
    simp only [Lit.value, hsc, hval]
  have hr : (Lit.proto (.bytes b) (.decimal (getNullability (Ty.isNullable (.decimal n v ts tp))) 0
      (Int32.ofInt sc) (Int32.ofInt p))).InRange (.decimal n v ts tp) := by
    simp only [Lit.InRange, hsc]
    exact ⟨hlen, by omega, by omega⟩
  have hf := C98_refusal_partial _ _ _ _ _ (Or.inr ⟨_, _, _, _, rfl⟩) hv hr h3
  exact ⟨l', rfl, C98_value_partial _ _ _ _ hv hf hr h3, hf⟩

/-- **C100 (varchar), partial.** An accepted `varchar` argument is not longer than its type says. -/
theorem C100_varchar_partial (x : TcExt) (q : Bool) (len s : Bytes) (c : CaseLit)
    (h : visitTypedArgument x (.fixed .varChar q len s) = .ok c) :
    ∃ l v, c.value = .lit l ∧ l.value = some v ∧ v.Fits c.type := by
  unfold visitTypedArgument at h
  simp only [visitArgument, newVarCharLiteral, Res.bind_eq_ok] at h
  obtain ⟨c', ⟨t, ht, l0, hl, h1⟩, h2⟩ := h
  cases h1; cases hl
  simp only [tcType, Res.bind_eq_ok] at ht
  obtain ⟨n, -, ht⟩ := ht
  cases ht
  simp [CaseLit.updateType, Ty.getParameters, Res.bind_eq_ok] at h2
  obtain ⟨l', h3, h4⟩ := h2
  cases h4
  have hf := C98_refusal_partial _ _ _ _ _ (Or.inl ⟨_, _, _, rfl⟩) rfl
    (by simp [Lit.InRange]) h3
  exact ⟨l', _, rfl, C98_value_partial _ _ _ _ rfl hf (by simp [Lit.InRange]) h3, hf⟩

/-- **C100 is false of the code** (fixed length): `'abc'::fixedchar<2>` is accepted. -/
theorem C100_negation : ¬ C100_statement := by
  intro h
  let x : TcExt := ⟨fun _ => .err, fun _ => .err, fun _ => .err, fun _ => 0, fun _ => .err, fun _ => (0, 0, 0)⟩
  have hc : visitTypedArgument x (.fixed .fixedChar false [50] [39, 97, 98, 99, 39]) =
      .ok ⟨.fixed .fixedChar 2 0 2, .lit (.prim (.fixedChar [97, 98, 99]) (.fixed .fixedChar 2 0 2))⟩ := by
    rfl
  obtain ⟨-, l, hl, -, hf⟩ := h x _ _ _ hc rfl
  cases hl
  have := hf _ rfl
  revert this
  simp [LitValue.Fits]

/-- **C100 is false of the code** (element types): `[true]::list<string>` is accepted. -/
theorem C100_negation_list (x : TcExt) :
    ∃ l, visitTypedArgument x (.list false (.prim .string false) [.lit (.bool true)]) =
        .ok ⟨.list 2 0 (.prim .string 2 0), .lit l⟩ ∧
      ∃ v, l.value = some v ∧ ¬ v.Fits (.list 2 0 (.prim .string 2 0)) := by
  refine ⟨.list [.prim (.bool true) (.prim .boolean 2 0)] (.list 2 0 (.prim .string 2 0)), rfl, _, rfl, ?_⟩
  simp [LitValue.Fits, Lit.getType]

/-- **C100 is false of the code** (day-time intervals): `[null]::list<interval_day<0>>` has the type
`list<interval_day?<0>>`. -/
theorem C100_negation_interval (x : TcExt) :
    ∃ c, visitTypedArgument x (.list false (.prec .intervalDay false (some [48])) [.lit .null]) = .ok c ∧
      ¬ (TcType.list false (.prec .intervalDay false (some [48]))).Means c.type := by
  refine ⟨⟨.list 2 0 (.prec .intervalDay 1 0 0), .lit (.list [.null (.prec .intervalDay 1 0 0)]
    (.list 2 0 (.prec .intervalDay 1 0 0)))⟩, rfl, ?_⟩
  rintro ⟨t', ⟨p, -, rfl⟩, h⟩
  cases h

/-- non-vacuity: `'ab'::varchar<3>` is accepted, and its type expression is small -/
example (x : TcExt) :
    (∃ c, visitTypedArgument x (.fixed .varChar false [51] [39, 97, 98, 39]) = .ok c) ∧
      (TcType.fixed .varChar false [51]).Small ∧
      ¬ (TcArg.fixed .varChar false [51] [39, 97, 98, 39]).NullInterval := by
  refine ⟨⟨_, rfl⟩, ?_, id⟩
  intro i hi
  have h3 : WritesInt [51] 3 := ⟨[51], ⟨by simp, by unfold Digits; decide⟩, Or.inl ⟨Or.inl rfl, by decide⟩⟩
  rw [hi.unique h3]; constructor <;> omega

/-- non-vacuity of `C100_decimal_partial`: `1.5::decimal<3,1>` -/
example : ∃ x : TcExt, x.parseDec [49, 46, 53] = .ok ⟨false, 15, -1⟩ ∧ (⟨false, 15, -1⟩ : Dec).InRange ∧
    ∃ c, visitTypedArgument x (.decimal false (some ([51], [49])) [49, 46, 53]) = .ok c := by
  refine ⟨⟨fun _ => .err, fun _ => .err, fun _ => .err, fun _ => 0, fun _ => .ok ⟨false, 15, -1⟩,
    fun _ => (0, 0, 0)⟩, rfl, by unfold Dec.InRange; decide +kernel, ?_⟩
  have h1 : decimalToBytes ⟨false, 15, -1⟩ = .ok (15 :: List.replicate 15 0, 2, 1) := by decide +kernel
  have h2 : modifyDecimal ((15 :: List.replicate 15 0).take 16) (Int32.toInt 1) (Int32.toInt 3)
      (Int32.toInt 1) = .ok (15 :: List.replicate 15 0, 3, 1) := by decide +kernel
  refine ⟨⟨.decimal 2 0 1 3, .lit (.proto (.bytes (15 :: List.replicate 15 0)) (.decimal 2 0 1 3))⟩, ?_⟩
  have ht : tcType (.decimal false (some ([51], [49]))) = .ok (.decimal 2 0 1 3) := rfl
  simp only [visitTypedArgument, visitArgument, ht, newDecimalFromString, h1, Res.ok_bind]
  have hl : newLiteral (.decimal ((15 :: List.replicate 15 0).take 16) (Int32.ofInt 2) (Int32.ofInt 1))
      (Ty.isNullable (.decimal 2 0 1 3)) =
      .ok (.proto (.bytes (15 :: List.replicate 15 0)) (.decimal 2 0 1 2)) := by rfl
  rw [hl]
  have hw : (Lit.proto (.bytes (15 :: List.replicate 15 0)) (.decimal 2 0 1 2)).withType (.decimal 2 0 1 3) =
      .ok (.proto (.bytes (15 :: List.replicate 15 0)) (.decimal 2 0 1 3)) := by
    simp only [Lit.withType, newDecimalWithType]
    rw [if_neg (by simp), h2]
    rfl
  show (Lit.withType _ _ >>= fun l => Res.ok (⟨Ty.decimal 2 0 1 3, .lit l⟩ : CaseLit)) = _
  rw [hw]; rfl

/-! ## C101: lists -/

/-- **C101.** A list argument that is accepted has one element for every element written, each of the
element type. -/
def C101_statement : Prop :=
  ∀ (x : TcExt) (q : Bool) (e : TcType) (es : List TcElem) (c : CaseLit),
    visitTypedArgument x (.list q e es) = .ok c →
    ∃ vs t lt, c.value = .lit (.list vs lt) ∧ e.Means t ∧ vs.length = es.length ∧
      ∀ v ∈ vs, v.getType = .ok t

/-- **C101 (integers), partial.** Integers in lists of lists .. are read as written: the same integers in the
same order in the same lists. Missing: empty inner lists and inner lists declared nullable, and values of
other kinds (`C101_negation` and its siblings). -/
theorem C101_integers_partial (x : TcExt) (q : Bool) (e : TcType) (t : Ty) (es : List TcElem)
    (he : e.Means t) (hq : e.InnerRequired) (hn : TcElem.NestedAll t es) :
    ∃ vs, visitTypedArgument x (.list q e es) =
        .ok ⟨.list (mark q) 0 t, .lit (.list vs (.list (mark q) 0 t))⟩ ∧ TcElem.AreAll t es vs := by
  have hrows : t.Rows := by
    clear hn
    induction e generalizing t with
    | prim k q => cases he; exact ⟨⟨q, rfl⟩, rfl⟩
    | list q e ih =>
        obtain ⟨t', ht, rfl⟩ := he
        obtain ⟨rfl, hq⟩ := hq
        exact ⟨rfl, rfl, ih _ ht hq⟩
    | decimal => exact hq.elim
    | prec => exact hq.elim
    | fixed => exact hq.elim
    | other => exact hq.elim
  obtain ⟨vs, h1, h2⟩ := visitElems_nested x es t hrows hn
  have hm : ¬ TcElem.marksAny t es = true := fun hm => rows_not_intervals hrows (marksAny_intervals hm)
  refine ⟨vs, ?_, h2⟩
  simp only [visitTypedArgument, visitArgument, visitListArg, tcType_of he, Res.ok_bind]
  rw [if_neg hm, h1, Res.ok_bind]
  by_cases hv : vs = []
  · subst hv
    simp [newEmptyList, CaseLit.updateType, Ty.getParameters, Lit.withType, mark_eq]
  · rw [if_neg (by simpa using hv), newList_same (rows_planType hrows) hv (areAll_types h2)]
    simp [CaseLit.updateType, Ty.getParameters, Lit.withType, mark_eq]

/-- **C101 (numbers and strings), partial.** In a list of a type whose values are written as numbers or
strings no element is lost and every element has the element type, when the elements are numbers or strings.
Missing: the other types and literals (`C101_negation`, `C100_negation_list`). -/
theorem C101_words_partial (x : TcExt) (q : Bool) (e : TcType) (es : List TcElem) (c : CaseLit)
    (h : visitTypedArgument x (.list q e es) = .ok c) (hr : e.Readable) (hs : e.Small)
    (hw : ∀ a ∈ es, a.IsWord) :
    ∃ vs t lt, c.value = .lit (.list vs lt) ∧ e.Means t ∧ vs.length = es.length ∧
      ∀ v ∈ vs, v.getType = .ok t := by
  unfold visitTypedArgument at h
  simp only [visitArgument, visitListArg, Res.bind_eq_ok] at h
  obtain ⟨c', ⟨t, ht, vs, hv, h1⟩, h2⟩ := h
  have hm : ¬ TcElem.marksAny t es = true := by
    intro hm
    have h3 := tcType_intervals ht (marksAny_intervals hm)
    cases e <;> first | exact h3.elim | exact hr.elim | skip
  rw [if_neg hm] at hv h1
  obtain ⟨h3, h4⟩ := visitElems_words ht hr hw hv
  refine ⟨vs, t, c.type, ?_, tcType_means ht hs, h3, h4⟩
  have key : ∃ lt, c' = ⟨.list (getNullability q) 0 t, .lit (.list vs lt)⟩ := by
    split at h1
    · rename_i h0
      cases h1
      have h0' : vs = [] := List.length_eq_zero_iff.1 h0
      subst h0'
      exact ⟨_, rfl⟩
    · rw [Res.bind_eq_ok] at h1
      obtain ⟨l, hl, h1⟩ := h1
      cases h1
      obtain ⟨t1, ts, -, -, rfl⟩ := (C11_newList _ _ _).1 hl
      exact ⟨_, rfl⟩
  obtain ⟨lt, rfl⟩ := key
  simp [CaseLit.updateType, Ty.getParameters, Lit.withType] at h2
  subst h2
  rfl

/-- **C101 is false of the code** (elements lost): `[1, 2]::list<boolean>` is accepted as an empty list. -/
theorem C101_negation : ¬ C101_statement := by
  intro h
  let x : TcExt := ⟨fun _ => .err, fun _ => .err, fun _ => .err, fun _ => 0, fun _ => .err, fun _ => (0, 0, 0)⟩
  obtain ⟨vs, t, lt, hc, -, hl, -⟩ := h x false (.prim .boolean false)
    [.lit (.numeric [49]), .lit (.numeric [50])]
    ⟨.list 2 0 (.prim .boolean 2 0), .lit (.list [] (.list 2 0 (.prim .boolean 2 0)))⟩ rfl
  cases hc
  simp at hl

/-- **C101 is false of the code** (empty inner lists): `[[]]::list<list<i32>>` is refused, and the element of
`[[]]::list<list<list<i32>>>` is a list of integers instead of a list of lists. -/
theorem C101_negation_empty (x : TcExt) :
    visitTypedArgument x (.list false (.list false (.prim .i32 false)) [.list []]) = .err ∧
    ∃ l lt, visitTypedArgument x (.list false (.list false (.list false (.prim .i32 false))) [.list []]) =
        .ok ⟨.list 2 0 (.list 2 0 (.list 2 0 (.prim .i32 2 0))), .lit (.list [l] lt)⟩ ∧
      l.getType = .ok (.list 2 0 (.prim .i32 2 0)) :=
  ⟨rfl, .list [] (.list 2 0 (.prim .i32 2 0)), _, rfl, rfl⟩

/-- non-vacuity: `[[1], [2, 3]]::list<list<i32>>` -/
example : (TcType.list false (.prim .i32 false)).Means (.list 2 0 (.prim .i32 2 0)) ∧
    (TcType.list false (.prim .i32 false)).InnerRequired ∧
    TcElem.NestedAll (.list 2 0 (.prim .i32 2 0))
      [.list [.lit (.numeric [49])], .list [.lit (.numeric [50]), .lit (.numeric [51])]] := by
  have h : ∀ b : UInt8, 48 ≤ b.toNat ∧ b.toNat ≤ 57 → WritesInt [b] (decimal [b]) := fun b hb =>
    ⟨[b], ⟨by simp, by intro c hc; simp only [List.mem_singleton] at hc; subst hc; exact hb⟩, Or.inl ⟨Or.inl rfl, rfl⟩⟩
  refine ⟨⟨_, rfl, rfl⟩, ⟨rfl, trivial⟩, ?_⟩
  simp only [TcElem.NestedAll, TcElem.Nested, ne_eq, List.cons_ne_nil, not_false_eq_true, true_and, and_true]
  exact ⟨⟨_, h 49 (by decide), by unfold Prim.Holds IsInt32; decide⟩,
    ⟨_, h 50 (by decide), by unfold Prim.Holds IsInt32; decide⟩,
    ⟨_, h 51 (by decide), by unfold Prim.Holds IsInt32; decide⟩⟩

/-- non-vacuity of `C101_words_partial`: `['a']::list<string>` is accepted -/
example (x : TcExt) :
    (∃ c, visitTypedArgument x (.list false (.prim .string false)
      [.lit (.string [39, 97, 39])]) = .ok c) ∧
    (TcType.prim .string false).Readable ∧ (TcType.prim .string false).Small :=
  ⟨⟨_, rfl⟩, by simp [TcType.Readable], trivial⟩

/-! ## C102: strings -/

/-- **C102.** A string between quotes, with the quotes in it doubled, is read as that string. -/
def C102_statement : Prop :=
  ∀ (x : TcExt) (q : Bool) (s : Bytes), ∃ t,
    visitTypedArgument x (.string q (quoted s)) = .ok ⟨t, .lit (.prim (.string s) t)⟩

/-- **C102 (no quotes inside), partial.** A string without quotes in it is read as written. Missing: quotes
inside (`C102_negation`). -/
theorem C102_plain_partial (x : TcExt) (q : Bool) (s : Bytes) (h : (39 : UInt8) ∉ s) :
    visitTypedArgument x (.string q (quoted s)) =
      .ok ⟨.prim .string (mark q) 0, .lit (.prim (.string s) (.prim .string (mark q) 0))⟩ := by
  have hr : rawString (quoted s) = s := by
    rw [quoted_plain s h]
    refine rawString_token s ?_ ?_
    · intro b hb; rintro rfl; exact h (List.mem_of_mem_head? hb)
    · intro b hb; rintro rfl; exact h (List.mem_of_mem_getLast? hb)
  simp only [visitTypedArgument, visitArgument, hr, newLiteral, newPrimLiteral, Res.ok_bind, mark_eq]
  rfl

/-- **C102 (printed text), partial.** The text `'` .. `'` around a string that neither begins nor ends with a
quote, which is how `CaseLiteral.String` prints it, is read as that string, quotes inside included. -/
theorem C102_printed_partial (x : TcExt) (q : Bool) (s : Bytes) (h1 : ∀ b, s.head? = some b → b ≠ 39)
    (h2 : ∀ b, s.getLast? = some b → b ≠ 39) :
    visitTypedArgument x (.string q (39 :: s ++ [39])) =
      .ok ⟨.prim .string (mark q) 0, .lit (.prim (.string s) (.prim .string (mark q) 0))⟩ := by
  simp only [visitTypedArgument, visitArgument, rawString_token s h1 h2, newLiteral, newPrimLiteral,
    Res.ok_bind, mark_eq]
  rfl

/-- **C102 is false of the code**: `'''a'`, the string `'a`, is read as `a`. -/
theorem C102_negation : ¬ C102_statement := by
  intro h
  let x : TcExt := ⟨fun _ => .err, fun _ => .err, fun _ => .err, fun _ => 0, fun _ => .err, fun _ => (0, 0, 0)⟩
  obtain ⟨t, ht⟩ := h x false [39, 97]
  have h2 : visitTypedArgument x (.string false (quoted [39, 97])) =
      .ok ⟨.prim .string 2 0, .lit (.prim (.string [97]) (.prim .string 2 0))⟩ := rfl
  rw [h2] at ht
  simp only [Res.ok.injEq, CaseLit.mk.injEq, CaseVal.lit.injEq, Lit.prim.injEq, PVal.string.injEq] at ht
  exact absurd ht.2.1 (by decide)

/-- **C102 is false of the code** (doubled quotes): `'a''b'`, the string `a'b`, is read with both quotes. -/
theorem C102_negation_doubled (x : TcExt) :
    visitTypedArgument x (.string false (quoted [97, 39, 98])) =
      .ok ⟨.prim .string 2 0, .lit (.prim (.string [97, 39, 39, 98]) (.prim .string 2 0))⟩ := rfl

/-- non-vacuity of `C102_printed_partial`: `a'b` neither begins nor ends with a quote -/
example : (∀ b, ([97, 39, 98] : Bytes).head? = some b → b ≠ 39) ∧
    (∀ b, ([97, 39, 98] : Bytes).getLast? = some b → b ≠ 39) := by
  constructor <;> · intro b hb; cases hb; decide

/-- non-vacuity: `ab` has no quote -/
example : (39 : UInt8) ∉ ([97, 98] : Bytes) := by decide

end Verif
