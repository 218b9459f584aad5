import Verif.Lemmas.Session
import Verif.Props.PlanBuild
/-!
# C113: a session with a plan builder
-/

namespace Verif

/-- **C113 (partial), what is made.** Whatever is done with a plan builder and its expression builders, in any
order, every expression and measure made can still be carried with the extension set as it is at the end, for the
columns it was made for; the set has anchors for functions and types of loaded extensions only. Missing: writes,
lambda parameters and nil arguments (`C109_negation`, `C109_negation_lambda`), extensions that are not loaded
(`C113_negation`), and as many anchors as an `uint32` counts. -/
theorem C113_made_partial (rest : RelReg) (c : Collection) (m : SessionState) (hc : c.Reachable)
    (h : Session rest c m) (hs : m.set.Small) :
    (∀ base e, (base, e) ∈ m.exprs → e.Carried (rest.ofSet c m.set).toReg base) ∧
    (∀ base x, (base, x) ∈ m.measures → x.Carried (rest.ofSet c m.set).toReg base) ∧
    m.set.count .variation = 0 ∧ ∀ a u, m.set.urns.get a = some u → c.urnLoaded u = true := by
  obtain ⟨_, _, h3, h4, h5⟩ := session_sound hc h hs
  exact ⟨h4, h5, h3.1, h3.2⟩

/-- **C113 (partial), anchors.** A step of the session leaves the meaning of every anchor as it was. -/
theorem C113_anchors_partial (rest : RelReg) (c : Collection) (m : SessionState) (hc : c.Reachable)
    (h : Session rest c m) (schema : Option (List Ty)) (b : XExp) (e : Expr) (s' : ExtSet)
    (hb : XExp.build c schema b [] m.set = .ok (e, s')) (hs : s'.Small) :
    m.set.Grows s' := by
  have ha := build_advances c schema b [] m.set s' e hb
  have hi := session_sound hc h (hs.earlier ha)
  exact (ha.2.2 hi.tidy hi.compact hs).2.2

/-- **C113 (partial).** A plan made with a plan builder, from relations made with it out of expressions and measures
made in the session, is written, together with the extension set, whatever order Go ranges over its maps in; and
what is written is read, with the same collection, as a plan with the same root, names, parameters and URLs in
which every anchor stands for the same. Missing: see `C113_made_partial`; further relations (`C43_others_lost`). -/
theorem C113_plan_partial (rest : RelReg) (c : Collection) (m : SessionState) (o : Orders) (r : Rel)
    (names urls : List String) (bs : List Binding) (p : Plan) (version adv : Option Nat) (hc : c.Reachable)
    (h : Session rest c m) (hs : m.set.Small) (ho : o.Of m.set) (hr : m.Builds rest r)
    (hb : ∀ b ∈ bs, b.value.Sendable ∧ b.value.Writable)
    (hp : planWithBindings (some r) names urls bs [] = .ok p) :
    ∃ msg p', FullPlan.toProto rest c o ⟨p, m.set, version, adv⟩ = .ok msg ∧
      FullPlan.fromProto rest c msg = .ok p' ∧
      p'.plan = ⟨[⟨some ⟨r, names⟩, none⟩], bs, urls⟩ ∧ p'.version = version ∧ p'.adv = adv ∧
      ∀ k a, p'.set.decode k a = m.set.decode k a := by
  obtain ⟨h1, _, h3, h4, h5⟩ := session_sound hc h hs
  refine C112_extensions_partial rest c m.set o r names urls bs p version adv h1 (.inr ?_) ho h3.2 ?_ hb hp
  · rw [h3.1]; exact Nat.zero_le 1
  · exact hr.mono h4 h5 fun d hd => by
      cases d <;> exact hd

/-- **C113, user-defined types.** The type the builder returns refers to an anchor that stands for its name in the
set afterwards, is nullable and has the parameters given; the function reference stands for the function. -/
theorem C113_references (s s' : ExtSet) (urn name : String) (ht : s.Tidy) (hk : s.Compact) (hs : s'.Small) :
    (∀ ps t, userDefinedType s urn name ps = .ok (t, s') →
      ∃ a, t = .udt NullabilityNullable 0 a ps ∧ s'.decode .type a = some ⟨urn, name⟩ ∧ s.Grows s') ∧
    (∀ a, getFunctionRef s urn name = .ok (a, s') → s'.decode .func a = some ⟨urn, name⟩ ∧ s.Grows s') := by
  refine ⟨fun ps t h => ?_, fun a h => ?_⟩
  · obtain ⟨a, h', rfl⟩ := typeRef_anchor h
    clear h
    rename' h' => h
    have ha := getAnchor_advances h
    obtain ⟨t', _, g⟩ := ha.2.2 ht hk hs
    obtain ⟨q, _, _⟩ := getAnchor_refers (fun a id h => (ht.1 _ _ _).2 h) h
    exact ⟨a, rfl, q, g⟩
  · have ha := getAnchor_advances h
    obtain ⟨t', _, g⟩ := ha.2.2 ht hk hs
    obtain ⟨q, _, _⟩ := getAnchor_refers (fun a id h => (ht.1 _ _ _).2 h) h
    exact ⟨q, g⟩

/-! ## An example -/

/-- an extension with a scalar function, a predicate and an aggregate function of one `i32`, and a type -/
def sesFile : ExtFile :=
  { fileOf [declOf "f" [.i32],
      ⟨"even", "", [⟨[.value (.prim .i32 1 0)], some (.prim .boolean 1 0), none, "", "", .mirror, none, {}⟩], false, false⟩]
      [declOf "total" [.i32]] [] with types := [⟨"point", 1⟩] }

/-- the collection with that extension -/
def sesCollection : Collection := (Collection.zero.load (some sesFile)).1

theorem ses_reachable : sesCollection.Reachable := .load _ _ .zero

/-- the row of the table: one nullable `i32` -/
def sesRow : Option (List Ty) := some [.prim .i32 1 0]

/-- `even(f(column 0))` -/
def sesEven : XExp := .scalarFn (threeId "even") [] [.expr (.scalarFn (threeId "f") [] [.expr colZero])]

/-- ... built -/
def sesEvenExpr : Expr :=
  .scalar ⟨2, "even:i32", [], .prim .boolean 1 0⟩
    [.expr (.scalar ⟨1, "f:i32", [], .prim .i32 1 0⟩ [.expr (exCol 0 (.prim .i32 1 0))])]

/-- `total(column 0)`, sorted by the column -/
def sesTotal : XAgg :=
  ⟨threeId "total:i32", [], 3, 1, [.expr colZero], [.mk (exCol 0 (.prim .i32 1 0)) (.direction 2)]⟩

/-- ... built -/
def sesTotalFn : AggFn :=
  ⟨⟨3, "total:i32", [], .prim .i32 1 0⟩, 3, 1, [.expr (exCol 0 (.prim .i32 1 0))],
    [.mk (exCol 0 (.prim .i32 1 0)) (.direction 2)]⟩

/-- the sets in between -/
def sesSet1 : ExtSet :=
  match userDefinedType .new "extension:acme:f" "point" [] with
  | .ok (_, s) => s
  | _ => .new
def sesSet2 : ExtSet :=
  match XExp.build sesCollection sesRow sesEven [] sesSet1 with
  | .ok (_, s) => s
  | _ => .new
def sesSet3 : ExtSet :=
  match sesTotal.build sesCollection sesRow sesSet2 with
  | .ok (_, s) => s
  | _ => .new

/-- the session: a type, a column, a predicate, a measure with the predicate as filter -/
def sesState : SessionState :=
  ⟨sesSet3, [(sesRow, sesEvenExpr), (sesRow, exCol 0 (.prim .i32 1 0))],
    [(sesRow, ⟨some sesTotalFn, sesEvenExpr⟩)]⟩

theorem sesState_small : sesState.set.Small := ⟨fun k => by cases k <;> decide, by decide⟩

theorem sesState_session (rest : RelReg) : Session rest sesCollection sesState := by
  have h1 : Session rest sesCollection ⟨sesSet1, [], []⟩ :=
    .typeRef ⟨.new, [], []⟩ "extension:acme:f" "point" [] _ sesSet1 .start rfl rfl
  have h2 : Session rest sesCollection ⟨sesSet1, [(sesRow, exCol 0 (.prim .i32 1 0))], []⟩ :=
    .given _ _ _ h1 (exCol_carried 0 _ 0 rfl rfl)
  have h3 : Session rest sesCollection ⟨sesSet2, [(sesRow, sesEvenExpr), (sesRow, exCol 0 (.prim .i32 1 0))], []⟩ := by
    refine .expr _ sesRow sesEven sesEvenExpr sesSet2 h2 rfl ?_ ?_ ?_ ?_
    · simp [sesEven, colZero, XExp.Proper, XArg.ProperList, Seg.KeysTyped]
    · simp [sesEven, colZero, XExp.Sendable, XArg.SendableList, ERoot.Sendable, Seg.KeysSendable]
    · simp [sesEven, colZero, XExp.Writable, XArg.WritableList, ERoot.Writable, Seg.KeysWritable]
    · simp [sesEven, sesEvenExpr, colZero, XExp.CallTypes, XArg.CallTypes, Ty.Carried, Ty.Sendable, Ty.PrecisionsOk,
        Ty.NoCompound, Ty.Writable]
  refine .measure _ sesRow sesTotal sesTotalFn sesSet3 sesEvenExpr h3 rfl ?_ ?_ ?_ ?_ ?_ ?_ (.inr (by simp))
  · simp [sesTotal, colZero, XExp.Proper, XArg.ProperList, Seg.KeysTyped]
  · simp [sesTotal, colZero, XExp.Sendable, XArg.SendableList, ERoot.Sendable, Seg.KeysSendable]
  · simp [sesTotal, colZero, XExp.Writable, XArg.WritableList, ERoot.Writable, Seg.KeysWritable]
  · intro e k he
    simp only [sesTotal, List.mem_singleton, ESort.mk.injEq] at he
    obtain ⟨rfl, rfl⟩ := he
    exact ⟨by simp, by simp⟩
  · simp [sesTotal, sesTotalFn, colZero, XExp.CallTypes, XArg.CallTypes]
  · simp [sesTotalFn, Ty.Carried, Ty.Sendable, Ty.PrecisionsOk, Ty.NoCompound, Ty.Writable]

/-- the table -/
def sesScan : Rel := .read {} { schema := { names := ["k"], types := [.prim .i32 1 0] } } (.named ["t"] none)
/-- its rows that satisfy the predicate -/
def sesFiltered : Rel := .filter {} sesScan sesEvenExpr none
/-- summed by key -/
def sesSum : Rel :=
  .aggregate {} sesFiltered [⟨some sesTotalFn, sesEvenExpr⟩] [exCol 0 (.prim .i32 1 0)] [[0]] none

theorem sesSum_builds (rest : RelReg) : sesState.Builds rest sesSum := by
  have h1 : sesState.Builds rest sesScan := .call (.scan ["t"] _) none _ rfl (by simp [BuildCall.Takes]) (by
    simp [BuildCall.Uses, Ty.Carried, Ty.Sendable, Ty.PrecisionsOk, Ty.NoCompound, Ty.Writable])
  have h2 : sesState.Builds rest sesFiltered := by
    refine .call (.filter (some sesScan) sesEvenExpr) none _ ?_ ?_ ?_
    · simp [BuildCall.run, filterRemap, sesEvenExpr, Expr.isNil, yieldsBoolean, Expr.getType, Ty.withNullability,
        Ty.equals, sesScan, sesFiltered, Rel.directOutputSchema, checkRemap, checkMapping]
    · intro x hx
      simp only [BuildCall.Takes, Option.some.injEq] at hx
      subst hx
      exact h1
    · intro x hx
      simp only [Option.some.injEq] at hx
      subst hx
      exact ⟨_, rfl, by simp [sesState, sesRow]⟩
  exact .columns sesFiltered [⟨some sesTotalFn, sesEvenExpr⟩] [0] _ rfl h2 ⟨[.prim .i32 1 0], rfl, by
    intro m hm
    simp only [List.mem_singleton] at hm
    subst hm
    simp [sesState, sesRow]⟩

/-- All hypotheses are met by a session with a user-defined type, calls of two scalar functions, and an aggregate
function with a filter and a sort, and a plan with a scan, a filter and a sum. -/
example (rest : RelReg) : ∃ p, planWithBindings (some sesSum) ["k", "s"] ["url"] [] [] = .ok p ∧
    ∃ msg p', FullPlan.toProto rest sesCollection sesState.set.orders ⟨p, sesState.set, none, none⟩ = .ok msg ∧
      FullPlan.fromProto rest sesCollection msg = .ok p' ∧
      p'.plan = ⟨[⟨some ⟨sesSum, ["k", "s"]⟩, none⟩], [], ["url"]⟩ := by
  refine ⟨_, rfl, ?_⟩
  obtain ⟨msg, p', h1, h2, h3, _⟩ := C113_plan_partial rest sesCollection sesState sesState.set.orders sesSum ["k", "s"]
    ["url"] [] _ none none ses_reachable (sesState_session rest) sesState_small (orders_of _) (sesSum_builds rest)
    (by simp) rfl
  exact ⟨msg, p', h1, h2, h3⟩

/-! ## What is false -/

/-- C113 with types of any extension: a plan that scans a table with a column of a user-defined type made with the
builder is written and read back. -/
def C113_statement : Prop :=
  ∀ (rest : RelReg) (c : Collection) (urn name : String) (t : Ty) (s : ExtSet) (p : Plan) (o : Orders),
    c.Reachable → userDefinedType .new urn name [] = .ok (t, s) → o.Of s →
    buildPlan (some (.read {} { schema := { names := ["k"], types := [t] } } (.named ["t"] none))) ["k"] [] = .ok p →
    ∃ msg p', FullPlan.toProto rest c o ⟨p, s, none, none⟩ = .ok msg ∧ FullPlan.fromProto rest c msg = .ok p'

/-- **C113, negation.** The builder gives out references to types of extensions it does not know; the plan is
written, but cannot be read with the same collection. -/
theorem C113_negation : ¬ C113_statement := by
  intro h
  obtain ⟨s, hs⟩ : ∃ s, userDefinedType .new "extension:acme:f" "point" [] = .ok (.udt 1 0 1 [], s) := ⟨_, rfl⟩
  obtain ⟨msg, p', h1, h2⟩ := h exRelReg .zero "extension:acme:f" "point" _ s _ s.orders .zero hs (orders_of _) rfl
  have hs' : s = sesSet1 := by
    have : userDefinedType .new "extension:acme:f" "point" [] = .ok (.udt 1 0 1 [], sesSet1) := rfl
    rw [this] at hs
    simp only [Res.ok.injEq, Prod.mk.injEq] at hs
    exact hs.2.symm
  subst hs'
  have he : ExtSet.toProto sesSet1.orders = .ok ([(1, "extension:acme:f")], [.type 1 1 "point"]) := rfl
  simp only [FullPlan.toProto, he, Res.ok_bind, Res.bind_eq_ok] at h1
  obtain ⟨pm, _, h1⟩ := h1
  cases h1
  have : getExtensionSet Collection.zero.urnLoaded ⟨[(1, "extension:acme:f")], [some (.type 1 1 "point")]⟩ = .err := rfl
  simp only [FullPlan.fromProto, List.map_cons, List.map_nil, this, Res.err_bind] at h2
  cases h2

end Verif
