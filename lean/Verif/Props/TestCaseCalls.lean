import Verif.Props.TestCaseAgg
import Verif.Props.LitCons
import Verif.Props.DayInterval
/-!
# Properties of function test files: kinds of calls, refusals and columns of intervals (C103-C105, C117)
-/

namespace Verif

/-! ## C105: kinds of calls and extensions -/

/-- **C105 (kind).** A test case of an aggregate function gives no call of a scalar function and the other
way round, whatever is registered. -/
theorem C105_kind (c : Collection) (s : ExtSet) (fs : List Variant) (opts : List (String × String)) (tc : TestCase) :
    (tc.funcType = .aggregate → tc.scalarInvocation c s fs opts = .err) ∧
    (tc.funcType = .scalar → tc.aggregateInvocation c s fs opts = .err) ∧
    (∀ r, tc.scalarInvocation c s fs opts = .ok r → tc.funcType = .scalar) ∧
    (∀ r, tc.aggregateInvocation c s fs opts = .ok r → tc.funcType = .aggregate) := by
  have h1 : tc.funcType = .aggregate → tc.scalarInvocation c s fs opts = .err := by
    intro h; rw [TestCase.scalarInvocation, if_pos (by simp [h])]
  have h2 : tc.funcType = .scalar → tc.aggregateInvocation c s fs opts = .err := by
    intro h; rw [TestCase.aggregateInvocation, if_pos (by simp [h])]
  refine ⟨h1, h2, fun r hr => ?_, fun r hr => ?_⟩
  · cases hk : tc.funcType with
    | scalar => rfl
    | aggregate => rw [h1 hk] at hr; cases hr
  · cases hk : tc.funcType with
    | aggregate => rfl
    | scalar => rw [h2 hk] at hr; cases hr

/-- **C105 (extension), other files.** Of a file `/name.yaml` outside of `/extensions/` the whole path is kept,
with its slash. -/
theorem C105_urn_outside (tc : TestCase) (n : String) (h : tc.baseURI = "/" ++ n ++ ".yaml")
    (hn : ¬ "extensions/".toList <+: n.toList ++ ".yaml".toList) : tc.urn = "extension:io.substrait:" ++ ("/" ++ n) := by
  have hl : tc.baseURI.toList = '/' :: (n.toList ++ ".yaml".toList) := by
    rw [h, String.toList_append, String.toList_append]; rfl
  have h1 : "/".toList.isPrefixOf tc.baseURI.toList = true := by rw [hl]; rfl
  have h2 : trimPrefix "/extensions/".toList tc.baseURI.toList = tc.baseURI.toList := by
    unfold trimPrefix
    rw [if_neg]
    intro hp
    obtain ⟨t, ht⟩ := List.isPrefixOf_iff_prefix.1 hp
    rw [hl, show "/extensions/".toList = '/' :: "extensions/".toList from by decide +kernel, List.cons_append] at ht
    exact hn ⟨t, (List.cons.inj ht).2⟩
  have h3 : trimSuffix ".yaml".toList tc.baseURI.toList = '/' :: n.toList := by
    unfold trimSuffix
    rw [hl, ← List.cons_append, if_pos (List.isSuffixOf_iff_suffix.2 (List.suffix_append _ _)), List.length_append,
      Nat.add_sub_cancel, List.take_left]
  rw [TestCase.urn, if_pos h1, h2, h3]
  congr 1
  apply String.toList_inj.1
  rw [String.toList_ofList, String.toList_append]
  rfl

/-- The hypotheses are met. -/
example : ¬ "extensions/".toList <+: "acme/f".toList ++ ".yaml".toList := by decide +kernel

/-- the type of an argument of an aggregate function -/
def AggArg.HasType (a : AggArg) (t : Ty) : Prop :=
  (∃ c, a.isScalar = true ∧ a.argument = some c ∧ c.type = t) ∨ (a.isScalar = false ∧ a.columnType = some t)

/-- **C105 (which one), aggregate functions.** The function with exactly the types of the arguments in its name
is called if that is possible; the types are those of the values and of the columns named, in the order of the
call. Otherwise it is the first function of the registry with the name and the number of arguments that belongs
to the extension and accepts the types. -/
theorem C105_which_aggregate (c : Collection) (s : ExtSet) (fs : List Variant) (opts : List (String × String))
    (tc : TestCase) (r : AggFn × ExtSet) (h : tc.aggregateInvocation c s fs opts = .ok r) :
    ∃ ts args, List.Forall₂ AggArg.HasType tc.aggregateArgs ts ∧ tc.aggregateCallArgs = .ok args ∧
    ∃ exact, exact = (⟨tc.urn, tc.funcName ++ ":" ++ "_".intercalate (ts.map Ty.shortString)⟩ : ExtId) ∧
    (newAggregateFunc c s exact (functionOptions opts) 1 3 [] args = .ok r ∨
     newAggregateFunc c s exact (functionOptions opts) 1 3 [] args = .err ∧
     ∃ pre v post id, fs = pre ++ v :: post ∧ v.id = .ok id ∧ id.urn = tc.urn ∧ v.name = tc.funcName ∧
      v.TakesCount tc.aggregateArgs.length ∧
      (∃ after, matchArguments v.impl.nullability v.impl.args v.impl.variadic ts = .ok (true, after)) ∧
      newAggregateFunc c s id (functionOptions opts) 1 3 [] args = .ok r ∧
      ∀ w ∈ pre, w.name = tc.funcName → w.TakesCount tc.aggregateArgs.length → w.urn = tc.urn → ∀ after,
        matchArguments w.impl.nullability w.impl.args w.impl.variadic ts ≠ .ok (true, after)) := by
  have hk := (C105_kind c s fs opts tc).2.2.2 r h
  unfold TestCase.aggregateInvocation at h
  rw [if_neg (by simp [hk])] at h
  simp only [Res.bind_eq_ok] at h
  obtain ⟨id, hid, args, hargs, h⟩ := h
  have hid0 := hid
  simp only [TestCase.id, Res.bind_eq_ok] at hid
  obtain ⟨ts, hts, hid⟩ := hid
  have htypes : List.Forall₂ AggArg.HasType tc.aggregateArgs ts := by
    have hts' := hts
    unfold someTypes TestCase.argTypes at hts'
    rw [hk] at hts'
    simp only at hts'
    rw [mapL_forall₂, List.forall₂_map_left_iff] at hts'
    refine hts'.imp fun a t hat => ?_
    by_cases hsc : a.isScalar = true
    · rw [if_pos hsc] at hat
      cases ha : a.argument with
      | none => rw [ha] at hat; cases hat
      | some cl =>
          rw [ha] at hat
          simp only [Option.map_some, Res.ok.injEq] at hat
          exact .inl ⟨cl, hsc, ha, hat⟩
    · rw [if_neg hsc] at hat
      cases ha : a.columnType with
      | none => rw [ha] at hat; cases hat
      | some t' =>
          rw [ha] at hat
          simp only [Res.ok.injEq] at hat
          exact .inr ⟨by simpa using hsc, by rw [ha, hat]⟩
  have hlen : args.length = tc.aggregateArgs.length := mapL_length hargs
  have hid' : id = ⟨tc.urn, tc.funcName ++ ":" ++ "_".intercalate (ts.map Ty.shortString)⟩ := by
    cases hid; rfl
  refine ⟨ts, args, htypes, hargs, id, hid', ?_⟩
  unfold callOrMatch at h
  split at h
  · rename_i a ha
    cases h
    exact .inl ha
  · cases h
  · rename_i he
    refine .inr ⟨he, ?_⟩
    rw [hts, Res.ok_bind] at h
    obtain ⟨pre, v, post, id', hvs, h1, h2, h3, h4, h5⟩ := firstMatch_ok h
    obtain ⟨l1, l2, hfs, hl1, hl2⟩ := List.filter_eq_append_iff.1 hvs
    obtain ⟨m1, m2, hl2', hm1, hm2, hm3⟩ := List.filter_eq_cons_iff.1 hl2
    have serves_iff : ∀ w : Variant, w.serves tc.funcName args.length = true ↔
        w.name = tc.funcName ∧ w.TakesCount tc.aggregateArgs.length := by
      intro w
      simp only [Variant.serves, Variant.TakesCount, Bool.and_eq_true, decide_eq_true_eq, Bool.or_eq_true, hlen]
      cases w.impl.variadic <;> simp
    obtain ⟨hn, hcount⟩ := (serves_iff v).1 hm2
    refine ⟨l1 ++ m1, v, m2, id', by rw [hfs, hl2', List.append_assoc], h1, h2.trans (by rw [hid']), hn, hcount, h4,
      h3, ?_⟩
    intro w hw hwn hwc hwu
    have hws := (serves_iff w).2 ⟨hwn, hwc⟩
    rcases List.mem_append.1 hw with hw | hw
    · exact h5 w (hl1 ▸ List.mem_filter.2 ⟨hw, hws⟩) (by rw [hwu, hid'])
    · exact absurd hws (hm1 w hw)

/-- a test case `total((..)::i32) = <!UNDEFINED>` of the extension of `sampleFile` -/
def exAggregate : TestCase :=
  ⟨"extension:acme:geo", "g", "total", [], [⟨none, "", [], some (.prim .i32 2 0), 0, false⟩], .undefined, none,
    [], "", .aggregate⟩

/-- The hypotheses are met. -/
example : ∃ f s', exAggregate.aggregateInvocation (Collection.zero.load (some sampleFile)).1 .new [] [("o", "p")] =
    .ok (f, s') ∧ f.a.declaration = "total:i32" := ⟨_, _, rfl, rfl⟩

/-! ## C104: refusals -/

/-- **C104 (refusals).** A column number that is negative or not below the number of arguments is refused. The
arguments of a call are never a panic when the values among them are there. -/
theorem C104_refused (tc : TestCase) (h : ∀ a ∈ tc.aggregateArgs, a.isScalar = true → a.argument ≠ none) :
    tc.aggregateCallArgs ≠ .panic ∧
    ((∃ a ∈ tc.aggregateArgs, a.isScalar = false ∧
      (a.columnIndex.toInt < 0 ∨ (tc.aggregateArgs.length : Int) ≤ a.columnIndex.toInt)) →
      tc.aggregateCallArgs = .err) := by
  have hlen : tc.tableSchema.length = tc.aggregateArgs.length := by simp [TestCase.tableSchema]
  have step : ∀ a ∈ tc.aggregateArgs, (if a.isScalar then
      match a.argument with
      | none => (.panic : Res EArg)
      | some c => .ok c.value.toArg
    else fieldRefAt tc.tableSchema a.columnIndex >>= fun e => .ok (.expr e)) ≠ .panic := by
    intro a ha
    by_cases hsc : a.isScalar = true
    · rw [if_pos hsc]
      cases harg : a.argument with
      | none => exact absurd harg (h a ha hsc)
      | some c => simp
    · rw [if_neg hsc]
      unfold fieldRefAt
      split
      · simp
      · rename_i hr
        simp only [Bool.or_eq_true, decide_eq_true_eq, not_or, Int.not_lt, Int.not_le] at hr
        obtain ⟨j, hj⟩ := Int.eq_ofNat_of_zero_le hr.1
        obtain ⟨t, ht⟩ : ∃ t, tc.tableSchema[j]? = some t :=
          ⟨_, List.getElem?_eq_getElem (by omega)⟩
        rw [hj, index_nat.2 ht]
        simp
  have hp : ∀ l : List AggArg, (∀ a ∈ l, a ∈ tc.aggregateArgs) → Res.mapL (fun a : AggArg => if a.isScalar then
      match a.argument with
      | none => (.panic : Res EArg)
      | some c => .ok c.value.toArg
    else fieldRefAt tc.tableSchema a.columnIndex >>= fun e => .ok (.expr e)) l ≠ .panic := by
    intro l
    induction l with
    | nil => intro _; simp [Res.mapL_nil]
    | cons a l ih =>
        intro hm hpan
        rw [Res.mapL_cons] at hpan
        have h1 := step a (hm a (by simp))
        have h2 := ih fun b hb => hm b (by simp [hb])
        revert hpan
        generalize (if a.isScalar then _ else _ : Res EArg) = x at h1 ⊢
        cases x with
        | ok v =>
            rw [Res.ok_bind]
            revert h2
            generalize Res.mapL _ l = y
            intro h2
            cases y <;> simp_all
        | err => simp
        | panic => exact absurd rfl h1
  refine ⟨hp _ fun _ ha => ha, ?_⟩
  rintro ⟨a, ha, hsc, hout⟩
  cases hr : tc.aggregateCallArgs with
  | err => rfl
  | panic => exact absurd hr (hp _ fun _ ha => ha)
  | ok as =>
      obtain ⟨j, hj⟩ := List.mem_iff_getElem?.1 ha
      unfold TestCase.aggregateCallArgs at hr
      obtain ⟨b, -, hb⟩ := mapL_get hr hj
      rw [if_neg (by simp [hsc])] at hb
      unfold fieldRefAt at hb
      rw [if_pos (by simp only [Bool.or_eq_true, decide_eq_true_eq, hlen]; exact hout)] at hb
      cases hb

/-- The hypotheses are met by a test case made without a file. -/
example : let tc : TestCase := ⟨"u", "g", "f", [], [⟨none, "t", colName [48], some (.prim .i32 2 0), -1, false⟩],
      .undefined, none, [], "t", .aggregate⟩
    (∀ a ∈ tc.aggregateArgs, a.isScalar = true → a.argument ≠ none) ∧
    ∃ a ∈ tc.aggregateArgs, a.isScalar = false ∧ a.columnIndex.toInt < 0 := by
  simp

/-! ## C103: columns of intervals -/

/-- **C103 (day-time intervals).** In a column `(..)::interval_day<p>` of day-time intervals and nulls every value
has the type of the column, and that is nullable exactly when it is declared so or one of the values is null. -/
theorem C103_intervals (x : TcExt) (cells : List TcLit) (q : Bool) (p : Option Bytes) (c : CaseLit)
    (hc : ∀ l ∈ cells, l = .null ∨ ∃ s, l = .intervalDay s)
    (h : visitDataColumn x cells (.prec .intervalDay q p) = .ok c) :
    ∃ vs n pr, c = ⟨.prec .intervalDay n 0 pr, .lit (.list vs (.list 2 0 (.prec .intervalDay n 0 pr)))⟩ ∧
      vs.length = cells.length ∧ (n = 1 ↔ q = true ∨ TcLit.null ∈ cells) ∧
      ∀ v ∈ vs, v.getType = .ok (.prec .intervalDay n 0 pr) := by
  unfold visitDataColumn at h
  rw [Res.bind_eq_ok] at h
  obtain ⟨t, ht, h⟩ := h
  obtain ⟨pr, rfl⟩ : ∃ pr, t = .prec .intervalDay (getNullability q) 0 pr := by
    cases p with
    | none => cases ht; exact ⟨_, rfl⟩
    | some p =>
        simp only [tcType, Res.bind_eq_ok] at ht
        obtain ⟨pr, -, ht⟩ := ht
        cases ht; exact ⟨_, rfl⟩
  have hm : ∀ cells : List TcLit, TcElem.marksAny (.prec .intervalDay (getNullability q) 0 pr) (cells.map TcElem.lit) =
      true ↔ TcLit.null ∈ cells := by
    intro cells
    induction cells with
    | nil => simp [TcElem.marksAny]
    | cons l ls ih =>
        rw [List.map_cons, TcElem.marksAny, Bool.or_eq_true, ih]
        cases l <;> simp [TcElem.marks]
  obtain ⟨n, hf, hn⟩ : ∃ n, (if TcElem.marksAny (.prec .intervalDay (getNullability q) 0 pr) (cells.map TcElem.lit) then
      (Ty.prec .intervalDay (getNullability q) 0 pr).markInterval else .prec .intervalDay (getNullability q) 0 pr) =
      .prec .intervalDay n 0 pr ∧ (n = 1 ↔ q = true ∨ TcLit.null ∈ cells) := by
    split
    · rename_i hmm
      exact ⟨1, rfl, by simp [(hm cells).1 hmm]⟩
    · rename_i hmm
      rw [hm] at hmm
      refine ⟨_, rfl, ?_⟩
      cases q <;> simp [getNullability, hmm, NullabilityNullable, NullabilityRequired]
  simp only [hf, Res.bind_eq_ok] at h
  obtain ⟨vs, hvs, h⟩ := h
  have key : ∀ (ls : List TcLit) (now : Ty) (vs : List Lit), (∀ l ∈ ls, l = .null ∨ ∃ s, l = .intervalDay s) →
      (TcLit.null ∈ ls → n = 1) → visitCells x (.prec .intervalDay n 0 pr) now ls = .ok vs → vs.length = ls.length ∧
      (vs.any Lit.isNullLit = true → TcLit.null ∈ ls) ∧ ∀ v ∈ vs, v.getType = .ok (.prec .intervalDay n 0 pr) := by
    intro ls
    induction ls with
    | nil => intro now vs _ _ h; cases h; simp
    | cons l ls ih =>
        intro now vs hl h1 h
        simp only [visitCells, Res.bind_eq_ok] at h
        obtain ⟨r, hr, vs', hvs', h⟩ := h
        obtain ⟨g1, g2, g3⟩ := ih _ _ (fun l' h' => hl l' (by simp [h'])) (fun h' => h1 (by simp [h'])) hvs'
        rcases hl l (by simp) with rfl | ⟨s, rfl⟩
        · simp only [cellType, visitLiteral] at hr
          cases hr
          simp only at h
          cases h
          have hn1 : n = 1 := h1 (by simp)
          refine ⟨by simp [g1], by simp, ?_⟩
          intro v hv
          rcases List.mem_cons.1 hv with rfl | hv
          · rw [hn1]; rfl
          · exact g3 v hv
        · simp only [cellType, visitLiteral, Res.bind_eq_ok] at hr
          obtain ⟨l0, -, l1, h2, hr⟩ := hr
          cases hr
          simp only at h
          cases h
          have hty : l1.getType = .ok (.prec .intervalDay n 0 pr) ∧ l1.isNullLit = false := by
            unfold Lit.withType at h2
            cases l0 with
            | proto v t =>
                simp only [newIntervalDayWithType] at h2
                split at h2
                · split at h2
                  · cases h2; exact ⟨rfl, rfl⟩
                  · cases h2
                · cases h2
            | prim v t => cases v <;> simp only [reduceCtorEq] at h2
            | _ => simp only [reduceCtorEq] at h2
          refine ⟨by simp [g1], ?_, ?_⟩
          · simp only [List.any_cons, hty.2, Bool.false_or]
            intro ha
            exact List.mem_cons_of_mem _ (g2 ha)
          · intro v hv
            rcases List.mem_cons.1 hv with rfl | hv
            · exact hty.1
            · exact g3 v hv
  obtain ⟨k1, k2, k3⟩ := key cells _ vs hc (fun h' => hn.2 (.inr h')) hvs
  cases h
  refine ⟨vs, n, pr, ?_, k1, hn, k3⟩
  split
  · rename_i ha
    rw [hn.2 (.inr (k2 ha))]
    rfl
  · rfl

/-- the interval `P1D` -/
theorem read_P1D (x : TcExt) : newIntervalDayFromString x (rawString [39, 80, 49, 68, 39]) true =
    .ok (.proto (.intervalDayToSecond ⟨1, 0, .precision 6, 0⟩) (.prec .intervalDay 1 0 6)) := by
  have h : parseIntervalDaysToSecond x.big (rawString [39, 80, 49, 68, 39]) = .ok ⟨1, 0, 0, 6⟩ :=
    C96_whole_partial x.big ⟨some [49], false, none, none, none⟩ (DayParts.wf_of (by decide)) (Or.inl (by simp))
      (by simp [DayParts.frac, DayParts.fracDigits, decimal]) (by decide) (by decide)
  rw [newIntervalDayFromString, h]
  rfl

/-- The hypotheses are met. -/
example (x : TcExt) : ∃ c, visitDataColumn x [.null, .intervalDay [39, 80, 49, 68, 39]] (.prec .intervalDay false none) =
    .ok c := by
  have : newIntervalDayFromString x (rawString [39, 80, 49, 68, 39]) (ctxNullable (some (.prec .intervalDay 1 0 0))) = _ :=
    read_P1D x
  exact ⟨_, by simp only [visitDataColumn, tcType, Res.ok_bind, List.map_cons, List.map_nil, TcElem.marksAny, TcElem.marks,
    Bool.true_or, if_true, Ty.markInterval, visitCells, cellType, visitLiteral, NullabilityNullable, this, Lit.withType,
    newIntervalDayWithType]; rfl⟩

/-- C103 is false of the code for other values in such a column: they are accepted, and whether they are nullable
depends on which side of the first null they stand. -/
theorem C103_negation_order (x : TcExt) :
    (∃ c vs, visitDataColumn x [.bool true, .null] (.prec .intervalDay false none) = .ok c ∧
      c.value = .lit (.list vs (.list 2 0 c.type)) ∧ vs.map Lit.getType = [.ok (.prim .boolean 2 0), .ok c.type]) ∧
    ∃ c vs, visitDataColumn x [.null, .bool true] (.prec .intervalDay false none) = .ok c ∧
      c.value = .lit (.list vs (.list 2 0 c.type)) ∧ vs.map Lit.getType = [.ok c.type, .ok (.prim .boolean 1 0)] :=
  ⟨⟨_, _, rfl, rfl, rfl⟩, _, _, rfl, rfl, rfl⟩

/-- C101: in a list of lists of day-time intervals the type of the intervals is nullable exactly when it is
declared so or one of them is null. -/
theorem C101_interval_lists (x : TcExt) (q q2 q3 : Bool) (p : Option Bytes) (es : List (List TcLit)) (c : CaseLit)
    (h : visitListArg x q (.list q2 (.prec .intervalDay q3 p)) (es.map fun l => .list (l.map .lit)) = .ok c) :
    ∃ n pr, c.type = .list (getNullability q) 0 (.list (getNullability q2) 0 (.prec .intervalDay n 0 pr)) ∧
      (n = 1 ↔ q3 = true ∨ ∃ l ∈ es, TcLit.null ∈ l) := by
  unfold visitListArg at h
  rw [Res.bind_eq_ok] at h
  obtain ⟨t, ht, h⟩ := h
  obtain ⟨pr, rfl⟩ : ∃ pr, t = .list (getNullability q2) 0 (.prec .intervalDay (getNullability q3) 0 pr) := by
    simp only [tcType, Res.bind_eq_ok] at ht
    obtain ⟨t0, ht0, ht⟩ := ht
    cases ht
    cases p with
    | none => cases ht0; exact ⟨_, rfl⟩
    | some p =>
        simp only [tcType, Res.bind_eq_ok] at ht0
        obtain ⟨pr, -, ht0⟩ := ht0
        cases ht0; exact ⟨_, rfl⟩
  have hm : ∀ cells : List TcLit, TcElem.marksAny (.prec .intervalDay (getNullability q3) 0 pr) (cells.map TcElem.lit) =
      true ↔ TcLit.null ∈ cells := by
    intro cells
    induction cells with
    | nil => simp [TcElem.marksAny]
    | cons l ls ih =>
        rw [List.map_cons, TcElem.marksAny, Bool.or_eq_true, ih]
        cases l <;> simp [TcElem.marks]
  have hm2 : ∀ es : List (List TcLit), TcElem.marksAny
      (.list (getNullability q2) 0 (.prec .intervalDay (getNullability q3) 0 pr))
      (es.map fun l => .list (l.map .lit)) = true ↔ ∃ l ∈ es, TcLit.null ∈ l := by
    intro es
    induction es with
    | nil => simp [TcElem.marksAny]
    | cons l ls ih =>
        rw [List.map_cons, TcElem.marksAny, Bool.or_eq_true, ih, TcElem.marks, hm]
        simp
  obtain ⟨n, hf, hn⟩ : ∃ n, (if TcElem.marksAny
      (.list (getNullability q2) 0 (.prec .intervalDay (getNullability q3) 0 pr)) (es.map fun l => .list (l.map .lit)) then
      (Ty.list (getNullability q2) 0 (.prec .intervalDay (getNullability q3) 0 pr)).markInterval else
        .list (getNullability q2) 0 (.prec .intervalDay (getNullability q3) 0 pr)) =
      .list (getNullability q2) 0 (.prec .intervalDay n 0 pr) ∧ (n = 1 ↔ q3 = true ∨ ∃ l ∈ es, TcLit.null ∈ l) := by
    split
    · rename_i hmm
      exact ⟨1, rfl, iff_of_true rfl (.inr ((hm2 es).1 hmm))⟩
    · rename_i hmm
      rw [hm2] at hmm
      refine ⟨_, rfl, ?_⟩
      cases q3 <;> simp only [hmm, or_false] <;> simp [getNullability, NullabilityNullable, NullabilityRequired]
  simp only [hf, Res.bind_eq_ok] at h
  obtain ⟨vs, -, h⟩ := h
  refine ⟨n, pr, ?_, hn⟩
  split at h
  · cases h; rfl
  · rw [Res.bind_eq_ok] at h
    obtain ⟨l, -, h⟩ := h
    cases h; rfl

/-- The hypotheses are met. -/
example (x : TcExt) : ∃ c, visitListArg x false (.list false (.prec .intervalDay false none))
    ([[.null], [.null]].map fun l => .list (l.map .lit)) = .ok c := by
  have h1 := newList_same (t := .prec .intervalDay 1 0 0) (by simp [Ty.PlanType])
    (vs := [.null (.prec .intervalDay 1 0 0)]) (by simp) (q := false) rfl
  have h2 := newList_same (t := .list 2 0 (.prec .intervalDay 1 0 0)) (by simp [Ty.PlanType])
    (vs := [.list [.null (.prec .intervalDay 1 0 0)] (.list (mark false) 0 (.prec .intervalDay 1 0 0)),
      .list [.null (.prec .intervalDay 1 0 0)] (.list (mark false) 0 (.prec .intervalDay 1 0 0))]) (by simp)
    (q := false) rfl
  exact ⟨_, by
    simp [visitListArg, tcType, TcElem.marksAny, TcElem.marks, Ty.markInterval, visitElems, visitElem, ctxElem,
      visitLiteral, newNullLiteral, Ty.withNullability, NullabilityNullable, h1, h2]
    rfl⟩

/-! ## C117: literals made for test files, precisions -/

/-- C117: the `varchar` literals of test files are those that `NewVarChar` makes. -/
theorem C117_varchar (s : Bytes) (nullable : Bool) :
    ∃ l, newVarCharLiteral s nullable = .ok l ∧ (LitCall.varChar s).run nullable = .ok l ∧
      l.getType = .ok (.fixed .varChar (getNullability nullable) 0 (Int32.ofNat s.length)) := by
  exact ⟨_, rfl, rfl, rfl⟩

/-- C117 is false of the code for precisions below 0 or above 9 taken with a time: the constructors do not return
an error, they panic. -/
theorem C117_negation_panics (p : Int32) (tm : ZonedTime) (nullable : Bool) (h : ¬ ValidPrecision p) :
    (LitCall.precisionTimeFromTime p tm).run nullable = .panic ∧
    (LitCall.precisionTimestampFromTime p tm).run nullable = .panic ∧
    (LitCall.precisionTimestampTzFromTime p tm).run nullable = .panic := by
  have key : ∀ t : GoTime, timeValue t p = .panic := by
    intro t
    unfold timeValue
    split
    · rfl
    · rename_i hp
      have h0 : 0 ≤ p.toInt := by
        have := mt Int32.lt_iff_toInt_lt.2 hp
        simpa using this
      have h9 : 9 < p.toInt := by
        by_contra h9
        exact h ⟨h0, by omega⟩
      obtain ⟨k, hk⟩ : ∃ k, p.toInt.toNat = k + 10 := ⟨p.toInt.toNat - 10, by omega⟩
      rw [hk]
      rfl
  simp [LitCall.run, key]

example : ¬ ValidPrecision (-1) ∧ ¬ ValidPrecision 10 := by
  constructor <;> simp [ValidPrecision]

end Verif
