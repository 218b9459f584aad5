import Verif.Spec.CaseText
import Verif.Props.TestPrint
import Verif.Props.TestCaseAgg
/-!
# Properties of printing whole function tests (C130)
-/

namespace Verif

/-- **C130.** The text of a test case does not depend on chance, and a file with that text has the same test case. -/
def C130_statement : Prop :=
  ∀ (x : TcExt) (f : TcFmt) (uri desc : String) (k : TestFuncType) (c : TcCase) (tc : TestCase),
    visitTestCase x uri desc k c = .ok tc →
    (∀ e e', tc.Order e → tc.Order e' → tc.text f e = tc.text f e') ∧
    ∀ e, tc.Order e → ∃ s c' tc', tc.text f e = .ok s ∧ WritesCase c' s ∧ visitTestCase x uri desc k c' = .ok tc' ∧
      tc'.Same tc

theorem utf8_append (a b : String) : utf8 (a ++ b) = utf8 a ++ utf8 b := by
  simp [utf8]

theorem utf8_signs : utf8 "::" = [58, 58] ∧ utf8 "[" = [91] ∧ utf8 "]::" = [93, 58, 58] ∧ utf8 ", " = [44, 32] ∧
    utf8 "(" = [40] ∧ utf8 ")" = [41] ∧ utf8 " = " = [32, 61, 32] ∧ utf8 " [" = [32, 91] ∧ utf8 "]" = [93] ∧
    utf8 "," = [44] ∧ utf8 ":" = [58] ∧ utf8 "((" = [40, 40] ∧ utf8 ")::" = [41, 58, 58] ∧ utf8 " " = [32] := by
  refine ⟨?_, ?_, ?_, ?_, ?_, ?_, ?_, ?_, ?_, ?_, ?_, ?_, ?_, ?_⟩ <;> decide +kernel

theorem readable_text {x : TcExt} {f : TcFmt} {c : CaseLit} (h : c.Readable x f) :
    ∃ s a, c.text f = .ok s ∧ WritesArg a s ∧ visitTypedArgument x a = .ok c := by
  rcases h with ⟨v, t, a, h1, h2, h3, h4⟩ | ⟨vs, t, a, h1, h2, h3, h4⟩ | ⟨name, rfl⟩
  · exact ⟨v ++ [58, 58] ++ utf8 t.text, a, by simp only [CaseLit.text, h1, Res.ok_bind],
      .inl ⟨v, t, by rw [utf8_signs.1], h2, h3⟩, h4⟩
  · refine ⟨[91] ++ joinBytes [44, 32] vs ++ [93] ++ [58, 58] ++ utf8 t.text, a,
      by simp only [CaseLit.text, h1, Res.ok_bind], .inr (.inl ⟨vs, t, ?_, h2, h3⟩), h4⟩
    simp [utf8_signs]
  · refine ⟨name ++ [58, 58] ++ utf8 "enum", .enum name, rfl, .inr (.inr ⟨name, ?_, rfl⟩), rfl⟩
    rw [show "::enum" = "::" ++ "enum" from rfl, utf8_append, utf8_signs.1, List.append_assoc]

/-- the result is printed as a text that is read as the same result -/
def CaseResult.Readable (x : TcExt) (f : TcFmt) : CaseResult → Prop
  | .value c => c.Readable x f
  | _ => True

theorem result_text {x : TcExt} {f : TcFmt} {r : CaseResult} (h : r.Readable x f) :
    ∃ s w, r.text f = .ok s ∧ WritesResult w s ∧ visitResult x w = .ok r := by
  cases r with
  | value c =>
    obtain ⟨s, a, h1, h2, h3⟩ := readable_text h
    exact ⟨s, .value a, h1, h2, by simp only [visitResult, h3, Res.ok_bind]⟩
  | error => exact ⟨_, .error, rfl, rfl, rfl⟩
  | undefined => exact ⟨_, .undefined, rfl, rfl, rfl⟩

theorem args_text {x : TcExt} {f : TcFmt} {cs : List CaseLit} (h : ∀ c ∈ cs, c.Readable x f) :
    ∃ ss as, Res.mapL (CaseLit.text f) cs = .ok ss ∧ List.Forall₂ WritesArg as ss ∧
      Res.mapL (visitTypedArgument x) as = .ok cs := by
  induction cs with
  | nil => exact ⟨[], [], rfl, .nil, rfl⟩
  | cons c cs ih =>
    obtain ⟨s, a, h1, h2, h3⟩ := readable_text (h c (by simp))
    obtain ⟨ss, as, h4, h5, h6⟩ := ih fun c hc => h c (by simp [hc])
    exact ⟨s :: ss, a :: as, by simp only [Res.mapL, h1, h4, Res.ok_bind], .cons h2 h5,
      by simp only [Res.mapL, h3, h6, Res.ok_bind]⟩

/-- what is read from entries with different names -/
theorem visitFuncOptions_get (es : List (String × String)) (hn : (es.map Prod.fst).Nodup) (name : String) :
    (visitFuncOptions es).get name = (es.find? fun p => p.1 = name).map Prod.snd := by
  unfold visitFuncOptions
  induction es using List.reverseRecOn with
  | nil => rfl
  | append_singleton es e ih =>
    obtain ⟨n, v⟩ := e
    rw [List.map_append, List.nodup_append] at hn
    rw [List.foldl_append, List.foldl_cons, List.foldl_nil, GoMap.get_set, ih hn.1, List.find?_append]
    by_cases h : name = n
    · subst h
      have : List.find? (fun p : String × String => decide (p.1 = name)) es = none := by
        simp only [List.find?_eq_none, decide_eq_true_eq]
        intro p hp e
        exact hn.2.2 p.1 (List.mem_map_of_mem hp) name (by simp) e
      simp [this]
    · have h' : ¬ n = name := fun e => h e.symm
      simp [h, h']

private theorem find_perm {a b : List (String × String)} (h : a.Perm b) (hn : (b.map Prod.fst).Nodup) (name : String) :
    (a.find? fun p => p.1 = name) = b.find? fun p => p.1 = name := by
  have key : ∀ (l : List (String × String)), (l.map Prod.fst).Nodup → ∀ p, (l.find? fun p => p.1 = name) = some p ↔
      p ∈ l ∧ p.1 = name := by
    intro l hl p
    induction l with
    | nil => simp
    | cons q l ih =>
      rw [List.map_cons, List.nodup_cons] at hl
      by_cases e : q.1 = name
      · simp only [List.find?_cons, e, decide_true, Option.some.injEq, List.mem_cons]
        constructor
        · rintro rfl; exact ⟨.inl rfl, e⟩
        · rintro ⟨rfl | hp, h2⟩
          · rfl
          · exact absurd (List.mem_map_of_mem (f := Prod.fst) hp) (by rw [h2, ← e]; exact hl.1)
      · simp only [List.find?_cons, e, decide_false, ih hl.2, List.mem_cons]
        constructor
        · rintro ⟨hp, h2⟩; exact ⟨.inr hp, h2⟩
        · rintro ⟨rfl | hp, h2⟩
          · exact absurd h2 e
          · exact ⟨hp, h2⟩
  refine Option.ext fun p => ?_
  rw [key a ((h.map _).nodup_iff.2 hn), key b hn, h.mem_iff]

theorem options_text {tc : TestCase} {e : List (String × String)} (h : tc.Order e) :
    ∃ o, WritesOptions o (optionText e) ∧
      ∀ name, (o.map visitFuncOptions).bind (·.get name) = tc.option name := by
  unfold TestCase.Order at h
  unfold TestCase.option
  by_cases h0 : e = []
  · subst h0
    refine ⟨none, rfl, fun name => ?_⟩
    split at h
    · rename_i h1; simp [h1]
    · rename_i m h1
      have : m.entries = [] := List.nil_perm.1 h
      simp [h1, GoMap.get, this]
  · split at h
    · exact absurd h h0
    · rename_i m h1
      refine ⟨some e, ⟨h0, ?_⟩, fun name => ?_⟩
      · have : ¬ e.length = 0 := by simpa using h0
        simp [optionText, this, utf8_append, utf8_signs]
      · rw [h1]
        simp only [Option.map_some, Option.bind_some]
        rw [visitFuncOptions_get e ((h.map _).nodup_iff.2 m.nodup), find_perm h m.nodup]
        rfl

/-- **C130 (scalar functions), partial.** If every argument and the result are printed as texts that are read as the
same (C108 says which are), then in whatever order the options come, a file with the text has the same test case. -/
theorem C130_scalar_partial (x : TcExt) (f : TcFmt) (uri desc : String) (c : TcCase) (tc : TestCase) (name : String)
    (args : List TcArg) (e : List (String × String))
    (h : visitTestCase x uri desc .scalar c = .ok tc) (hc : c.call = .scalar name args)
    (ha : ∀ a ∈ tc.args, a.Readable x f) (hr : tc.result.Readable x f) (ho : tc.Order e) :
    ∃ s c' tc', tc.text f e = .ok s ∧ WritesCase c' s ∧ visitTestCase x uri desc .scalar c' = .ok tc' ∧ tc'.Same tc := by
  obtain ⟨ss, as, h1, h2, h3⟩ := args_text ha
  obtain ⟨r, w, h4, h5, h6⟩ := result_text hr
  obtain ⟨o, h7, h8⟩ := options_text ho
  simp only [visitTestCase, hc, visitCall, Res.bind_eq_ok] at h
  obtain ⟨p, ⟨cs, hcs, hp⟩, r', -, h⟩ := h
  cases hp
  cases h
  refine ⟨utf8 name ++ [40] ++ joinBytes [44, 32] ss ++ [41] ++ optionText e ++ [32, 61, 32] ++ r,
    ⟨.scalar name as, o, w⟩, ⟨uri, desc, name, cs, [], r', o.map visitFuncOptions, [], "", .scalar⟩, ?_, ?_, ?_, ?_⟩
  · simp only [TestCase.text, TestCase.scalarText, h1, h4, Res.ok_bind]
  · refine ⟨_, optionText e, r, ⟨ss, h2, rfl⟩, h7, h5, ?_⟩
    simp [utf8_signs]
  · simp only [visitTestCase, visitCall, visitArguments, h3, h6, Res.ok_bind]
  · exact ⟨h8, rfl⟩

/-- non-vacuity: `f(1::i8, x::enum) [a:b] = <!ERROR>` -/
example (x : TcExt) (f : TcFmt) : ∃ tc, visitTestCase x "u" "d" .scalar
      ⟨.scalar "f" [.int .i8 false [49], .enum [120]], some [("a", "b")], .error⟩ = .ok tc ∧
    (∀ a ∈ tc.args, a.Readable x f) ∧ tc.result.Readable x f ∧ tc.Order [("a", "b")] := by
  refine ⟨_, rfl, ?_, trivial, ?_⟩
  · intro a ha
    simp only [List.mem_cons, List.not_mem_nil, or_false] at ha
    rcases ha with rfl | rfl
    · exact .inl (C108_integer x f .i8 false [49] _ rfl)
    · exact .inr (.inr ⟨_, rfl⟩)
  · exact List.Perm.refl _

/-- **C130 (order), partial.** With at most one option the text of a test case does not depend on the order. -/
theorem C130_order_partial (f : TcFmt) (tc : TestCase) (e e' : List (String × String))
    (h1 : ∀ m, tc.options = some m → m.len ≤ 1) (h : tc.Order e) (h' : tc.Order e') : tc.text f e = tc.text f e' := by
  unfold TestCase.Order at h h'
  split at h
  · rw [h]
    split at h'
    · rw [h']
    · simp_all
  · rename_i m hm
    rw [hm] at h'
    have hl := h1 m hm
    have : e = e' := by
      have hp : e.Perm e' := h.trans h'.symm
      have hl' : e'.length ≤ 1 := by rw [h'.length_eq]; exact hl
      match e', hl' with
      | [], _ => exact List.perm_nil.1 hp
      | [a], _ => exact List.perm_singleton.1 hp
    rw [this]

/-- non-vacuity: one option -/
example : (⟨"", "", "f", [], [], .error, some (visitFuncOptions [("a", "b")]), [], "", .scalar⟩ : TestCase).Order
    [("a", "b")] ∧ (visitFuncOptions [("a", "b")]).len ≤ 1 := ⟨List.Perm.refl _, by decide⟩

/-- **C130, negation.** With two options the text depends on the order in which Go ranges over the map. -/
theorem C130_negation : ¬ C130_statement := by
  intro h
  let x : TcExt := ⟨fun _ => .err, fun _ => .err, fun _ => .err, fun _ => 0, fun _ => .err, fun _ => (0, 0, 0)⟩
  let f : TcFmt := ⟨fun _ => [], fun _ => [], fun _ => [], fun _ _ => [], fun _ _ => [], fun _ _ => [],
    fun _ _ _ _ => [], fun _ => [], fun _ _ => [], fun _ => []⟩
  have := (h x f "" "" .scalar ⟨.scalar "f" [], some [("a", "b"), ("c", "d")], .error⟩ _ rfl).1
    [("a", "b"), ("c", "d")] [("c", "d"), ("a", "b")] (List.Perm.refl _) (List.Perm.swap _ _ _)
  injection this with this
  revert this
  decide +kernel

theorem visitCells_elems (x : TcExt) (t : Ty) (cells : List TcLit) :
    visitCells x t t cells = visitElems x t (cells.map .lit) := by
  induction cells with
  | nil => rfl
  | cons c cells ih =>
    have h1 : cellType t t c = t := by cases c <;> rfl
    have h2 : typeAfter t t c = t := by cases c <;> rfl
    simp only [visitCells, h1, h2, ih, List.map_cons, visitElems, visitElem]
    rfl

theorem simple_literalToString (x : TcExt) (f : TcFmt) {k : Prim} {n : Nullability} {e : TcElem} {v : Lit}
    (hs : e.Simple k) (h : visitElem x (.prim k n 0) e = .ok (some v)) : literalToString f v = v.valueString f := by
  cases e with
  | list es => exact hs.elim
  | lit l =>
    cases l with
    | null => cases h; rfl
    | bool b =>
      cases hs
      simp only [visitElem, visitLiteral, newLiteral, newPrimLiteral, Res.ok_bind] at h
      cases h
      rfl
    | numeric s =>
      rcases hs with rfl | rfl | rfl | rfl <;>
      · simp only [visitElem, visitLiteral, literalFromString, Res.bind_eq_ok] at h
        obtain ⟨l, hl, h⟩ := h
        cases h
        unfold getIntLiteral at hl
        rw [Res.bind_eq_ok] at hl
        obtain ⟨v, -, hl⟩ := hl
        simp only [newLiteral, newPrimLiteral] at hl
        cases hl
        rfl
    | _ => exact hs.elim

theorem simple_column (x : TcExt) (f : TcFmt) {k : Prim} {n : Nullability} :
    ∀ {es : List TcLit} {vs : List Lit}, (∀ e ∈ es, (TcElem.lit e).Simple k) →
    visitElems x (.prim k n 0) (es.map .lit) = .ok vs →
    ∃ ws ls, Res.mapL (literalToString f) vs = .ok ws ∧ List.Forall₂ (fun c w => tcLitOf w = some c) ls ws ∧
      visitElems x (.prim k n 0) (ls.map .lit) = .ok vs
  | [], vs, _, h => by
    cases h
    exact ⟨[], [], rfl, .nil, rfl⟩
  | e :: es, vs, hs, h => by
    simp only [List.map_cons, visitElems, Res.bind_eq_ok] at h
    obtain ⟨r, h1, vs', h2, h⟩ := h
    obtain ⟨v, w, l, rfl, h3, h4, h5⟩ := simple_readBack x f (hs e (by simp)) h1
    obtain ⟨ws, ls, h6, h7, h8⟩ := simple_column x f (fun e he => hs e (by simp [he])) h2
    cases h
    have h9 := simple_literalToString x f (hs e (by simp)) h1
    refine ⟨w :: ws, l :: ls, ?_, .cons h4 h7, ?_⟩
    · simp only [Res.mapL, h9, h3, h6, Res.ok_bind]
    · simp only [List.map_cons, visitElems, h5, h8, Res.ok_bind]

theorem simple_noNull (x : TcExt) {k : Prim} {n : Nullability} :
    ∀ {es : List TcLit} {vs : List Lit}, (∀ e ∈ es, (TcElem.lit e).Simple k) → (∀ e ∈ es, e ≠ .null) →
    visitElems x (.prim k n 0) (es.map .lit) = .ok vs → vs.any Lit.isNullLit = false
  | [], vs, _, _, h => by cases h; rfl
  | e :: es, vs, hs, hn, h => by
    simp only [List.map_cons, visitElems, Res.bind_eq_ok] at h
    obtain ⟨r, h1, vs', h2, h⟩ := h
    have ih := simple_noNull x (fun e he => hs e (by simp [he])) (fun e he => hn e (by simp [he])) h2
    have hs1 := hs e (by simp)
    have hn1 := hn e (by simp)
    cases r with
    | none => cases h; exact ih
    | some v =>
      cases h
      rw [List.any_cons, ih, Bool.or_false]
      cases e with
      | null => exact absurd rfl hn1
      | bool b =>
        cases hs1
        simp only [visitElem, visitLiteral, newLiteral, newPrimLiteral, Res.ok_bind] at h1
        cases h1
        rfl
      | numeric s =>
        rcases hs1 with rfl | rfl | rfl | rfl <;>
        · simp only [visitElem, visitLiteral, literalFromString, Res.bind_eq_ok] at h1
          obtain ⟨l, hl, h1⟩ := h1
          cases h1
          unfold getIntLiteral at hl
          rw [Res.bind_eq_ok] at hl
          obtain ⟨v, -, hl⟩ := hl
          simp only [newLiteral, newPrimLiteral] at hl
          cases hl
          rfl
      | _ => exact hs1.elim

/-- **C130 (columns), partial.** The same for tests of aggregate functions with one column of integers or truth values,
if the column has no nulls or is declared nullable. -/
theorem C130_column_partial (x : TcExt) (f : TcFmt) (uri desc : String) (c : TcCase) (tc : TestCase) (name : String)
    (cells : List TcLit) (k : Prim) (q : Bool) (e : List (String × String))
    (h : visitTestCase x uri desc .aggregate c = .ok tc) (hc : c.call = .column name cells (.prim k q))
    (hs : ∀ l ∈ cells, (TcElem.lit l).Simple k) (hn : q = true ∨ ∀ l ∈ cells, l ≠ .null)
    (hr : tc.result.Readable x f) (ho : tc.Order e) :
    ∃ s c' tc', tc.text f e = .ok s ∧ WritesCase c' s ∧ visitTestCase x uri desc .aggregate c' = .ok tc' ∧
      tc'.Same tc := by
  obtain ⟨r, w, h4, h5, h6⟩ := result_text hr
  obtain ⟨o, h7, h8⟩ := options_text ho
  have hm : ∀ es, ¬ TcElem.marksAny (.prim k (getNullability q) 0) es = true := by
    intro es hm
    exact (marksAny_intervals hm).elim
  simp only [visitTestCase, hc, visitCall, visitDataColumn, tcType, Res.ok_bind, if_neg (hm _), visitCells_elems,
    Res.bind_eq_ok] at h
  obtain ⟨p, ⟨C, ⟨vs, hvs, hC⟩, hp⟩, r', hr', h⟩ := h
  have hT : (if vs.any Lit.isNullLit then (Ty.prim k (getNullability q) 0).withNullability NullabilityNullable
      else .prim k (getNullability q) 0) = .prim k (getNullability q) 0 := by
    rcases hn with rfl | hn
    · split <;> rfl
    · rw [simple_noNull x hs hn hvs]; rfl
  rw [hT] at hC
  obtain ⟨ws, ls, h1, h2, h3⟩ := simple_column x f hs hvs
  cases hC
  cases hp
  cases h
  refine ⟨utf8 name ++ [40] ++ ([40] ++ joinBytes [44, 32] ws ++ [41, 58, 58] ++
      utf8 (Ty.prim k (getNullability q) 0).string) ++ [41] ++ optionText e ++ [32, 61, 32] ++ r,
    ⟨.column name ls (.prim k q), o, w⟩, ⟨uri, desc, name, [], [⟨some ⟨.prim k (getNullability q) 0,
      .lit (.list vs (.list NullabilityRequired 0 (.prim k (getNullability q) 0)))⟩, "", [],
      some (.prim k (getNullability q) 0), 0, false⟩], r', o.map visitFuncOptions, [], "", .aggregate⟩, ?_, ?_, ?_, ?_⟩
  · simp [TestCase.text, TestCase.aggregateText, TestCase.needCompact, AggArg.text, CaseLit.aggregateText, h1, h4,
      Res.mapL, Res.ok_bind, joinBytes]
  · refine ⟨_, optionText e, r, ⟨ws, h2, rfl, rfl⟩, h7, h5, ?_⟩
    simp [utf8_signs, TcType.text, Ty.string, Ty.pieces, joined, queryMark_eq, prim_word]
  · simp only [visitTestCase, visitCall, visitDataColumn, tcType, Res.ok_bind, if_neg (hm _), visitCells_elems, h3, hT, h6]
  · exact ⟨h8, rfl⟩

/-- non-vacuity: `f((1, null)::i8?) = <!ERROR>` -/
example (x : TcExt) (f : TcFmt) : ∃ tc, visitTestCase x "u" "d" .aggregate
      ⟨.column "f" [.numeric [49], .null] (.prim .i8 true), none, .error⟩ = .ok tc ∧
    (∀ l ∈ [TcLit.numeric [49], .null], (TcElem.lit l).Simple .i8) ∧ tc.result.Readable x f ∧ tc.Order [] := by
  refine ⟨_, rfl, ?_, trivial, rfl⟩
  intro e he
  simp only [List.mem_cons, List.not_mem_nil, or_false] at he
  rcases he with rfl | rfl <;> simp [TcElem.Simple]

/-- a cell of a table of integers or truth values is printed as a text that is read as the same cell -/
theorem table_cell (x : TcExt) (f : TcFmt) {k : Prim} {n : Nullability} {c : TcLit} {r : Option Lit} {l v : Lit}
    (hs : (TcElem.lit c).Simple k) (h1 : visitLiteral x none c = .ok r) (h2 : r = some l)
    (h3 : tableCell x (some (.prim k n 0)) l = .ok v) :
    ∃ w c' l', literalToString f v = .ok w ∧ tcLitOf w = some c' ∧ visitLiteral x none c' = .ok (some l') ∧
      tableCell x (some (.prim k n 0)) l' = .ok v := by
  subst h2
  cases c with
  | null =>
    cases h1
    cases h3
    exact ⟨_, .null, _, rfl, rfl, rfl, rfl⟩
  | bool b =>
    cases hs
    simp only [visitLiteral, newLiteral, newPrimLiteral, Res.ok_bind] at h1
    cases h1
    cases h3
    exact ⟨_, .bool b, _, rfl, by cases b <;> rfl, rfl, rfl⟩
  | numeric s =>
    simp only [visitLiteral, newLiteral, newPrimLiteral, Res.ok_bind] at h1
    cases h1
    have key : ∀ l, getIntLiteral s (.prim k n 0) = .ok l → ∃ i, l.valueString f = .ok (intText i) ∧
        getIntLiteral (intText i) (.prim k n 0) = .ok l := fun l hl => getIntLiteral_readBack f hl
    rcases hs with rfl | rfl | rfl | rfl <;>
    · simp only [tableCell, getLiteral, literalFromString, Res.bind_eq_ok] at h3
      obtain ⟨v', ⟨r, ⟨l, hl, hr⟩, hv⟩, h3⟩ := h3
      cases hr
      cases hv
      obtain ⟨i, g1, g2⟩ := key l hl
      have hlit : literalToString f l = l.valueString f ∧ l.isNullLit = false := by
        unfold getIntLiteral at hl
        rw [Res.bind_eq_ok] at hl
        obtain ⟨v, -, hl⟩ := hl
        simp only [newLiteral, newPrimLiteral] at hl
        cases hl
        exact ⟨rfl, rfl⟩
      simp only [Option.getD_some, hlit.2, Bool.false_eq_true, if_false] at h3
      cases h3
      refine ⟨intText i, .numeric (intText i), _, hlit.1.trans g1, by simp [tcLitOf, tokKind_int], rfl, ?_⟩
      simp only [tableCell, getLiteral, literalFromString, g2, Res.ok_bind, Option.getD_some, hlit.2, Bool.false_eq_true,
        if_false]
  | _ => exact hs.elim

theorem mapL_along {α β γ : Type} (F : β → Res γ) (a : α → β) (b : α → γ) (l : List α)
    (h : ∀ y ∈ l, F (a y) = .ok (b y)) : Res.mapL F (l.map a) = .ok (l.map b) := by
  induction l with
  | nil => rfl
  | cons y l ih =>
    simp only [List.map_cons, Res.mapL_cons, h y (by simp), ih fun z hz => h z (by simp [hz]), Res.ok_bind]

theorem colArgs_text (x : TcExt) (f : TcFmt) {args : List TcColArg} {as : List AggArg}
    (hsc : ∀ g b, TcColArg.scalar g ∈ args → visitArgument x g = .ok b → b.ReadableAsIs x f)
    (h : Res.mapL (visitAggregateFuncArg x) args = .ok as) :
    ∃ ss args', Res.mapL (AggArg.text f) as = .ok ss ∧ List.Forall₂ WritesColArg args' ss ∧
      Res.mapL (visitAggregateFuncArg x) args' = .ok as ∧ (∀ a ∈ as, a.isScalar = true ∨ a.columnName ≠ []) := by
  induction args generalizing as with
  | nil => cases h; exact ⟨[], [], rfl, .nil, rfl, by simp⟩
  | cons a args ih =>
    simp only [Res.mapL_cons, Res.bind_eq_ok] at h
    obtain ⟨a1, h1, as1, h2, h⟩ := h
    cases h
    obtain ⟨ss, args', h3, h4, h5, h6⟩ := ih (fun g b hg => hsc g b (by simp [hg])) h2
    have key : ∃ s a', a1.text f = .ok s ∧ WritesColArg a' s ∧ visitAggregateFuncArg x a' = .ok a1 ∧
        (a1.isScalar = true ∨ a1.columnName ≠ []) := by
      cases a with
      | scalar g =>
        simp only [visitAggregateFuncArg, Res.bind_eq_ok] at h1
        obtain ⟨b, hb, h1⟩ := h1
        cases h1
        obtain ⟨s, a', g1, g2, g3⟩ := hsc g b (by simp) hb
        exact ⟨s, .scalar a', by simpa [AggArg.text] using g1, g2,
          by simp only [visitAggregateFuncArg, g3, Res.ok_bind], .inl rfl⟩
      | column cn tr =>
        simp only [visitAggregateFuncArg, Res.bind_eq_ok] at h1
        obtain ⟨t, ht, h1⟩ := h1
        obtain ⟨tr', g1, g2, g3⟩ := C108_type tr t ht
        have h1' := h1
        simp only [newAggregateArgument, Res.bind_eq_ok] at h1'
        obtain ⟨i, hi, h1'⟩ := h1'
        split at h1'
        · cases h1'
        cases h1'
        have hcn : cn ≠ [] := by
          rintro rfl
          cases hi
        refine ⟨cn ++ [58, 58] ++ utf8 t.string, .column cn tr', ?_, ?_, ?_, .inr hcn⟩
        · simp [AggArg.text, hcn]
        · exact ⟨by rw [g1, utf8_signs.1], g2⟩
        · simp only [visitAggregateFuncArg, g3, Res.ok_bind, h1]
    obtain ⟨s, a', g1, g2, g3, g4⟩ := key
    refine ⟨s :: ss, a' :: args', ?_, .cons g2 h4, ?_, ?_⟩
    · simp only [Res.mapL_cons, g1, h3, Res.ok_bind]
    · simp only [Res.mapL_cons, g3, h5, Res.ok_bind]
    · intro a ha
      rcases List.mem_cons.1 ha with rfl | ha
      · exact g4
      · exact h6 a ha

theorem withNullability_prim {t : Ty} {k : Prim} {n m : Nullability} (h : t.withNullability m = .prim k n 0) :
    ∃ n', t = .prim k n' 0 := by
  cases t <;> simp [Ty.withNullability] at h
  obtain ⟨rfl, -, rfl⟩ := h
  exact ⟨_, rfl⟩

/-- **C130 (rows), partial.** The same for `((1, 2), (3, 4)) f(col0::i8, col1::i8)`: rows of the same length, all columns
with a type, cells that are integers, truth values or nulls. -/
theorem C130_compact_partial (x : TcExt) (f : TcFmt) (uri desc : String) (c : TcCase) (tc : TestCase) (name : String)
    (rows : List (List TcLit)) (args : List TcColArg) (e : List (String × String))
    (h : visitTestCase x uri desc .aggregate c = .ok tc) (hc : c.call = .compact rows name args)
    (hcol : tc.columns ≠ []) (hrect : ∀ row ∈ rows, row.length = tc.columns.length)
    (hs : ∀ row ∈ rows, ∀ (j : Nat) cell, row[j]? = some cell → ∀ col, tc.columns[j]? = some col →
      ∃ k n, col.2 = some (.prim k n 0) ∧ (TcElem.lit cell).Simple k)
    (hsc : ∀ g b, TcColArg.scalar g ∈ args → visitArgument x g = .ok b → b.ReadableAsIs x f)
    (hr : tc.result.Readable x f) (ho : tc.Order e) :
    ∃ s c' tc', tc.text f e = .ok s ∧ WritesCase c' s ∧ visitTestCase x uri desc .aggregate c' = .ok tc' ∧
      tc'.Same tc := by
  obtain ⟨r, w, h4, h5, h6⟩ := result_text hr
  obtain ⟨o, h7, h8⟩ := options_text ho
  simp only [visitTestCase, hc, visitCall, Res.bind_eq_ok] at h
  obtain ⟨p, ⟨lits, hlits, as, has, row0, hrow0, ts, hts, cols, hcols, hp⟩, r', -, h⟩ := h
  cases hp
  cases h
  simp only at hcol hrect hs hr h4 h6
  obtain ⟨ss, args', g1, g2, g3, g4⟩ := colArgs_text x f hsc has
  have hm : cols.length = ts.length := by
    have := mapL_length hcols
    simpa using this
  -- the rows as literals
  have hrowlen : ∀ (i : Nat) (row : List TcLit), rows[i]? = some row → ∃ ls : List Lit, lits[i]? = some ls ∧
      Res.mapL (visitLiteral x none) row = .ok (ls.map some) := by
    intro i row hi
    obtain ⟨ls, hl, hv⟩ := mapL_get hlits hi
    simp only [visitRow, Res.bind_eq_ok] at hv
    obtain ⟨rs, hrs, hv⟩ := hv
    cases hv
    refine ⟨_, hl, ?_⟩
    rw [hrs]
    congr 1
    have hrow := List.mem_of_getElem? hi
    have hall : ∀ r ∈ rs, ∃ l, r = some l := by
      intro r hr
      obtain ⟨j, hj⟩ := List.mem_iff_getElem?.1 hr
      have hlen := mapL_length hrs
      have hj' : j < row.length := hlen ▸ (List.getElem?_eq_some_iff.1 hj).1
      obtain ⟨r2, hr2, hvis⟩ := mapL_get hrs (i := j) (a := row[j]) (by simp [hj'])
      rw [hj] at hr2
      cases hr2
      obtain ⟨k, n, -, hsim⟩ := hs row hrow j row[j] (by simp [hj']) (cols[j]'(by rw [← hrect row hrow]; exact hj'))
        (by simp)
      cases hcell : row[j] with
      | null => rw [hcell] at hvis; cases hvis; exact ⟨_, rfl⟩
      | bool b => rw [hcell] at hvis; cases hvis; exact ⟨_, rfl⟩
      | numeric s => rw [hcell] at hvis; cases hvis; exact ⟨_, rfl⟩
      | _ => rw [hcell] at hsim; exact hsim.elim
    clear hrs hl
    induction rs with
    | nil => rfl
    | cons r rs ih =>
      obtain ⟨l, rfl⟩ := hall r (by simp)
      show some l :: rs = List.map some (l :: List.filterMap id rs)
      rw [List.map_cons, ← ih fun r hr => hall r (by simp [hr])]
  have hn : lits.length = rows.length := mapL_length hlits
  -- the columns
  have hcolj : ∀ j (hj : j < ts.length), ∃ cells, cols[j]? = some (cells,
        if cells.any Lit.isNullLit then ts[j].map (·.withNullability NullabilityNullable) else ts[j]) ∧
      Res.mapL (fun row => Res.index row j >>= tableCell x ts[j]) lits = .ok cells := by
    intro j hj
    obtain ⟨col, hcj, hv⟩ := mapL_get hcols (i := j) (a := (ts[j], j)) (by simp [hj])
    simp only [tableColumn, Res.bind_eq_ok] at hv
    obtain ⟨cells, hcells, hv⟩ := hv
    cases hv
    exact ⟨cells, hcj, hcells⟩
  have hQ : ∀ (i j : Nat) (hj : j < ts.length) cells, i < rows.length →
      Res.mapL (fun row => Res.index row j >>= tableCell x ts[j]) lits = .ok cells →
      cols[j]? = some (cells,
        if cells.any Lit.isNullLit then ts[j].map (·.withNullability NullabilityNullable) else ts[j]) →
      ∃ v, cells[i]? = some v ∧ ∃ w c l, literalToString f v = .ok w ∧ tcLitOf w = some c ∧
        visitLiteral x none c = .ok (some l) ∧ tableCell x ts[j] l = .ok v := by
    intro i j hj cells hi hcells hcj
    have hri : rows[i]? = some rows[i] := by simp [hi]
    obtain ⟨ls, hls, hvis⟩ := hrowlen i _ hri
    obtain ⟨v, hv, hcell⟩ := mapL_get hcells hls
    rw [Res.bind_eq_ok] at hcell
    obtain ⟨l, hl, hcell⟩ := hcell
    rw [Res.index_eq_ok] at hl
    have hl' : ls[j]? = some l := by simpa using hl.2
    have hrl : (rows[i]).length = cols.length := hrect _ (List.getElem_mem hi)
    have hj' : j < (rows[i]).length := by omega
    obtain ⟨r2, hr2, hvj⟩ := mapL_get hvis (i := j) (a := rows[i][j]) (by simp [hj'])
    rw [List.getElem?_map, hl'] at hr2
    cases hr2
    obtain ⟨k, n, hk, hsim⟩ := hs _ (List.getElem_mem hi) j rows[i][j] (by simp [hj']) _ hcj
    have ht : ∃ n', ts[j] = some (.prim k n' 0) := by
      simp only at hk
      split at hk
      · rw [Option.map_eq_some_iff] at hk
        obtain ⟨t, ht, hk⟩ := hk
        obtain ⟨n', rfl⟩ := withNullability_prim hk
        exact ⟨n', ht⟩
      · exact ⟨n, hk⟩
    obtain ⟨n', ht⟩ := ht
    rw [ht] at hcell ⊢
    exact ⟨v, hv, table_cell x f hsim hvj rfl hcell⟩
  -- texts, trees and literals of the cells
  have hall : ∀ i j : Nat, ∃ (v : Lit) (w : Bytes) (c : TcLit) (l : Lit), i < rows.length → j < ts.length →
      (cols.getD j ([], none)).1[i]? = some v ∧ literalToString f v = .ok w ∧ tcLitOf w = some c ∧
      visitLiteral x none c = .ok (some l) ∧ tableCell x (ts.getD j none) l = .ok v := by
    intro i j
    by_cases hij : i < rows.length ∧ j < ts.length
    · obtain ⟨cells, h1, h2⟩ := hcolj j hij.2
      obtain ⟨v, hv, w, c, l, q1, q2, q3, q4⟩ := hQ i j hij.2 cells hij.1 h2 h1
      refine ⟨v, w, c, l, fun _ _ => ⟨?_, q1, q2, q3, ?_⟩⟩
      · rw [List.getD_eq_getElem?_getD, h1]; exact hv
      · rw [List.getD_eq_getElem?_getD]; simpa [hij.2] using q4
    · exact ⟨.nil, [], .null, .nil, fun a b => absurd ⟨a, b⟩ hij⟩
  choose V W C L hall using hall
  have hn0 : 0 < rows.length := by
    rw [Res.index_eq_ok] at hrow0
    have := (List.getElem?_eq_some_iff.1 hrow0.2).1
    omega
  have hcells : ∀ j (hj : j < ts.length), cols[j]? = some ((List.range rows.length).map fun i => V i j,
      if ((List.range rows.length).map fun i => V i j).any Lit.isNullLit then
        ts[j].map (·.withNullability NullabilityNullable) else ts[j]) := by
    intro j hj
    obtain ⟨cells, h1, h2⟩ := hcolj j hj
    have hc : cells = (List.range rows.length).map fun i => V i j := by
      apply List.ext_getElem?
      intro i
      have hlen : cells.length = rows.length := by rw [mapL_length h2, hn]
      by_cases hi : i < rows.length
      · have := (hall i j hi hj).1
        rw [List.getD_eq_getElem?_getD, h1] at this
        simp only [Option.getD_some] at this
        simp [this, hi]
      · simp [hi, hlen]
    rw [← hc]
    exact h1
  have hwidth : row0.length = ts.length := by
    rw [columnTypesOf_length hts, List.length_replicate]
  have hm0 : 0 < ts.length := by
    rw [← hm]; exact List.length_pos_iff.2 hcol
  let lits' := (List.range rows.length).map fun i => (List.range ts.length).map fun j => L i j
  have k1 : Res.mapL (visitRow x) ((List.range rows.length).map fun i => (List.range ts.length).map fun j => C i j) =
      .ok lits' := by
    refine mapL_along _ _ _ _ fun i hi => ?_
    have hi := List.mem_range.1 hi
    unfold visitRow
    rw [mapL_along _ _ (fun j => some (L i j)) _ fun j hj => (hall i j hi (List.mem_range.1 hj)).2.2.2.1, Res.ok_bind]
    simp [List.filterMap_map]
  have k2 : Res.index lits' 0 = .ok ((List.range ts.length).map fun j => L 0 j) := by
    rw [Res.index_eq_ok]
    simp [lits', hn0]
  have k3 : getColumnsFromRows x lits' ts = .ok cols := by
    refine mapL_forall₂.2 (List.forall₂_iff_get.2 ⟨by simp [hm], fun j h1 h2 => ?_⟩)
    have hj : j < ts.length := by simpa using h1
    have hcj := (List.getElem?_eq_some_iff.1 (hcells j hj)).2
    simp only [List.get_eq_getElem, List.getElem_zipIdx, Nat.zero_add, hcj]
    unfold tableColumn
    rw [mapL_along _ _ (fun i => V i j) _ fun i hi => ?_, Res.ok_bind]
    have hi := List.mem_range.1 hi
    have := (hall i j hi hj).2.2.2.2
    rw [List.getD_eq_getElem?_getD] at this
    simp only [hj, List.getElem?_eq_getElem, Option.getD_some] at this
    rw [(Res.index_eq_ok (x := L i j)).2 (by simp [hj]), Res.ok_bind, this]
  have k4 : ∀ i ∈ List.range rows.length, tableRowText f cols i =
      .ok ([40] ++ joinBytes [44, 32] ((List.range ts.length).map fun j => W i j) ++ [41]) := by
    intro i hi
    have hi := List.mem_range.1 hi
    unfold tableRowText
    have : Res.mapL (fun c : List Lit × Option Ty => Res.index c.1 i >>= literalToString f) cols =
        .ok ((List.range ts.length).map fun j => W i j) := by
      refine mapL_forall₂.2 (List.forall₂_iff_get.2 ⟨by simp [hm], fun j h1 h2 => ?_⟩)
      have hj : j < ts.length := by omega
      have hcj := (List.getElem?_eq_some_iff.1 (hcells j hj)).2
      simp only [List.get_eq_getElem, hcj, List.getElem_map, List.getElem_range]
      rw [(Res.index_eq_ok (x := V i j)).2 (by simp [hi]), Res.ok_bind]
      exact (hall i j hi hj).2.1
    rw [this, Res.ok_bind]
  have k5 : TestCase.tableText f ⟨uri, desc, name, [], as, r', c.options.map visitFuncOptions, cols, "", .aggregate⟩ =
      .ok ([40] ++ joinBytes [44, 32] ((List.range rows.length).map fun i =>
        [40] ++ joinBytes [44, 32] ((List.range ts.length).map fun j => W i j) ++ [41]) ++ [41]) := by
    have h0 := hcells 0 hm0
    unfold TestCase.tableText
    split
    · rename_i hnil; exact absurd hnil hcol
    · rename_i c0 cs hcs
      simp only at hcs
      rw [← hcs]
      rw [hcs] at h0
      simp only [List.getElem?_cons_zero, Option.some.injEq] at h0
      rw [h0]
      simp only [List.length_map, List.length_range]
      have := mapL_along (tableRowText f cols) id _ (List.range rows.length) k4
      rw [List.map_id] at this
      rw [this, Res.ok_bind]
  have k6 : TestCase.needCompact ⟨uri, desc, name, [], as, r', c.options.map visitFuncOptions, cols, "", .aggregate⟩ =
      true := by
    unfold TestCase.needCompact
    simp only [reduceCtorEq, if_false]
    split
    · rfl
    · rename_i hne
      obtain ⟨a, as', rfl⟩ := List.exists_cons_of_ne_nil (fun e => hne (by simp [e]) : as ≠ [])
      rw [List.any_cons]
      rcases g4 a (by simp) with h | h
      · simp [h]
      · simp [h]
  refine ⟨[40] ++ joinBytes [44, 32] ((List.range rows.length).map fun i =>
        [40] ++ joinBytes [44, 32] ((List.range ts.length).map fun j => W i j) ++ [41]) ++ [41] ++ [32] ++ utf8 name ++
      [40] ++ joinBytes [44, 32] ss ++ [41] ++ optionText e ++ [32, 61, 32] ++ r,
    ⟨.compact ((List.range rows.length).map fun i => (List.range ts.length).map fun j => C i j) name args', o, w⟩,
    ⟨uri, desc, name, [], as, r', o.map visitFuncOptions, cols, "", .aggregate⟩, ?_, ?_, ?_, ⟨h8, rfl⟩⟩
  · simp only [TestCase.text, TestCase.aggregateText, k6, k5, if_true, g1, h4, Res.ok_bind]
  · refine ⟨_, optionText e, r, ⟨_, ss, ⟨(List.range rows.length).map fun i => (List.range ts.length).map fun j => W i j,
      ?_, rfl⟩, g2, rfl⟩, h7, h5, ?_⟩
    · refine List.forall₂_iff_get.2 ⟨by simp, fun i h1 h2 => ?_⟩
      refine List.forall₂_iff_get.2 ⟨by simp, fun j h3 h4 => ?_⟩
      simp only [List.get_eq_getElem, List.getElem_map, List.getElem_range, List.length_map, List.length_range] at h1 h3 ⊢
      exact (hall i j h1 h3).2.2.1
    · simp [utf8_signs, Function.comp_def]
  · simp only [visitTestCase, visitCall, k1, g3, k2, Res.ok_bind, List.length_map, List.length_range]
    rw [hwidth] at hts
    simp only [hts, k3, h6, Res.ok_bind]

/-- non-vacuity: `((1, true), (null, false)) f(col0::i8, col1::boolean) = <!ERROR>` -/
example (x : TcExt) (f : TcFmt) : ∃ tc, visitTestCase x "u" "d" .aggregate
      ⟨.compact [[.numeric [49], .bool true], [.null, .bool false]] "f"
        [.column [99, 111, 108, 48] (.prim .i8 false), .column [99, 111, 108, 49] (.prim .boolean false)], none, .error⟩ =
        .ok tc ∧
    tc.columns = [([.prim (.int8 1) (.prim .i8 2 0), .null (.prim .i8 1 0)], some (.prim .i8 1 0)),
      ([.prim (.bool true) (.prim .boolean 2 0), .prim (.bool false) (.prim .boolean 2 0)], some (.prim .boolean 2 0))] ∧
    tc.result.Readable x f ∧ tc.Order [] := ⟨_, rfl, rfl, trivial, rfl⟩

/-- **C130, negation for columns.** `f((1, null)::i8) = <!ERROR>` is printed as `f((1, null)::i8?) = <!ERROR>`, which
writes another test: one in which `1` is nullable. -/
theorem C130_negation_column (x : TcExt) (f : TcFmt) : ∃ tc c' tc',
    visitTestCase x "" "" .aggregate ⟨.column "f" [.numeric [49], .null] (.prim .i8 false), none, .error⟩ = .ok tc ∧
    tc.text f [] = .ok (utf8 "f((1, null)::i8?) = <!ERROR>") ∧ WritesCase c' (utf8 "f((1, null)::i8?) = <!ERROR>") ∧
    visitTestCase x "" "" .aggregate c' = .ok tc' ∧ ¬ tc'.Same tc := by
  refine ⟨⟨"", "", "f", [], [⟨some ⟨.prim .i8 1 0, .lit (.list [.prim (.int8 1) (.prim .i8 2 0), .null (.prim .i8 1 0)]
      (.list 2 0 (.prim .i8 1 0)))⟩, "", [], some (.prim .i8 1 0), 0, false⟩], .error, none, [], "", .aggregate⟩,
    ⟨.column "f" [.numeric [49], .null] (.prim .i8 true), none, .error⟩,
    ⟨"", "", "f", [], [⟨some ⟨.prim .i8 1 0, .lit (.list [.prim (.int8 1) (.prim .i8 1 0), .null (.prim .i8 1 0)]
      (.list 2 0 (.prim .i8 1 0)))⟩, "", [], some (.prim .i8 1 0), 0, false⟩], .error, none, [], "", .aggregate⟩,
    rfl, ?_, ?_, rfl, ?_⟩
  · have h1 : literalToString f (.prim (.int8 1) (.prim .i8 2 0)) = .ok [49] := by
      show Res.ok (intText (1 : Int8).toInt) = _
      congr 1
      decide +kernel
    have h2 : literalToString f (.null (.prim .i8 1 0)) = .ok [110, 117, 108, 108] := rfl
    simp only [TestCase.text, TestCase.aggregateText, TestCase.needCompact, reduceCtorEq, if_false, List.length_cons,
      List.length_nil, List.any_cons, List.any_nil, List.isEmpty_nil, Bool.not_true, Bool.or_false, Res.mapL_cons,
      Res.mapL_nil, AggArg.text, CaseLit.aggregateText, h1, h2, Res.ok_bind, CaseResult.text, Nat.reduceAdd,
      Bool.false_eq_true, if_true]
    congr 1
  · refine ⟨utf8 "f((1, null)::i8?)", [], utf8 "<!ERROR>", ⟨[[49], [110, 117, 108, 108]], ?_, rfl, by decide +kernel⟩, rfl,
      rfl, by decide +kernel⟩
    exact .cons (by rfl) (.cons (by rfl) .nil)
  · rintro ⟨-, h⟩
    simp at h

/-- **C130, negation for tables.** The text of a test with a named table never writes that test: the name is lost. -/
theorem C130_negation_table (x : TcExt) (f : TcFmt) (uri desc : String) (c : TcCase) (tc : TestCase) (table name : String)
    (types : List TcType) (rows : List (List TcLit)) (args : List TcTableArg) (e : List (String × String)) (s : Bytes)
    (h : visitTestCase x uri desc .aggregate c = .ok tc) (hc : c.call = .table table types rows name args)
    (ht : table ≠ "") (hcol : tc.columns ≠ []) (hs : tc.text f e = .ok s) :
    ¬ ∃ c' tc', WritesCase c' s ∧ visitTestCase x uri desc .aggregate c' = .ok tc' ∧ tc'.Same tc := by
  rintro ⟨⟨call, opts, res⟩, tc', ⟨cs, os, rs, h1, -, -, h4⟩, h5, -, h7⟩
  simp only [visitTestCase, hc, visitCall, Res.bind_eq_ok] at h
  obtain ⟨p, ⟨vals, -, ts, -, cols, -, as1, hq, as2, hq2, hp⟩, r, -, h⟩ := h
  cases hp
  cases h
  have hname : tc'.tableName = table := by
    have := congrArg TestCase.tableName h7
    exact this
  simp only [visitTestCase, Res.bind_eq_ok] at h5
  obtain ⟨p, hp, r', -, h5⟩ := h5
  cases h5
  simp only at hname
  cases call with
  | scalar n as =>
    simp only [visitCall, Res.bind_eq_ok] at hp
    obtain ⟨_, -, hp⟩ := hp
    cases hp
    exact ht hname.symm
  | column n cells t =>
    simp only [visitCall, Res.bind_eq_ok] at hp
    obtain ⟨_, -, hp⟩ := hp
    cases hp
    exact ht hname.symm
  | compact rows' n as =>
    simp only [visitCall, Res.bind_eq_ok] at hp
    obtain ⟨_, -, _, -, _, -, _, -, _, -, hp⟩ := hp
    cases hp
    exact ht hname.symm
  | table tn tys rows' n as =>
    obtain ⟨_, _, -, -, -, h1⟩ := h1
    have hD : s.head? = some 68 := by
      rw [h4, h1]
      have : utf8 "DEFINE " = [68, 69, 70, 73, 78, 69, 32] := by decide +kernel
      simp [this]
    have hP : s.head? = some 40 := by
      have hneed : TestCase.needCompact ⟨uri, desc, name, [], as2, r, c.options.map visitFuncOptions, cols, table,
          .aggregate⟩ = true := by
        unfold TestCase.needCompact
        simp only [reduceCtorEq, if_false]
        split
        · rfl
        · rename_i hne
          obtain ⟨a, as', rfl⟩ := List.exists_cons_of_ne_nil (fun e => hne (by simp [e]) : as2 ≠ [])
          rw [List.any_cons]
          obtain ⟨a1, ha1, hv⟩ := (mapL_ok_mem hq2 a).1 (by simp)
          obtain ⟨a0, ha0, hv0⟩ := (mapL_ok_mem hq a1).1 ha1
          rcases tableArgs_ok hv0 hv with ⟨_, _, _, rfl, _⟩ | ⟨tn', cn, i, col, _, -, hi, _, _, rfl⟩
          · simp
          · have hcn : cn ≠ [] := by
              rintro rfl
              obtain ⟨ds, hds, (⟨h | h, -⟩ | ⟨h, -⟩)⟩ := hi
              · exact hds.1 h.symm
              · cases h
              · cases h
            simp [hcn]
      simp only [TestCase.text, TestCase.aggregateText, hneed, if_true, Res.bind_eq_ok] at hs
      obtain ⟨tb, ⟨tt, htt, htb⟩, ss, -, rr, -, hs⟩ := hs
      cases htb
      cases hs
      unfold TestCase.tableText at htt
      split at htt
      · rename_i hnil; exact absurd hnil hcol
      · rw [Res.bind_eq_ok] at htt
        obtain ⟨rws, -, htt⟩ := htt
        cases htt
        simp
    rw [hD] at hP
    cases hP

/-- non-vacuity: `DEFINE t1(i8) = ((1)) f(t1.col0) = <!ERROR>` -/
example (x : TcExt) (f : TcFmt) : ∃ tc s, visitTestCase x "u" "d" .aggregate
      ⟨.table "t1" [.prim .i8 false] [[.numeric [49]]] "f" [.column "t1" [99, 111, 108, 48]], none, .error⟩ = .ok tc ∧
    tc.columns ≠ [] ∧ tc.text f [] = .ok s := by
  refine ⟨_, _, rfl, ?_, rfl⟩
  intro h
  cases h

end Verif
