import Verif.Lemmas.Extended
import Verif.Props.ExtSet
import Verif.Props.PlanProto
import Verif.Props.FuncCall
/-!
# C94: extended expressions
-/

namespace Verif

/-- What is kept of an extended expression when it is written and read. -/
structure Extended.SameAs (x y : Extended) : Prop where
  refs : x.refs = y.refs
  base : x.base = y.base
  urls : x.urls = y.urls
  version : x.version = y.version
  adv : x.adv = y.adv
  /-- every anchor stands for the same function, type or variation -/
  set : ∀ k a, x.set.decode k a = y.set.decode k a

/-- C94, as stated: an extended expression that was written is read back the same. -/
def C94_statement : Prop :=
  ∀ (rest : Reg) (c : Collection) (x : Extended) (o : Orders) (m : ExtendedMsg), o.Of x.set →
    (∀ a u, x.set.urns.get a = some u → c.urnLoaded u = true) → x.toProto rest c o = .ok m →
    ∃ x', Extended.fromProto rest c m = .ok x' ∧ x'.SameAs x

/-- A tidy set that is written and read back makes the same registry. -/
theorem registry_read_back {s : ExtSet} {o : Orders} {loaded : String → Bool} (ht : s.Tidy)
    (hv : s.count .type = 0 ∨ s.count .variation ≤ 1) (ho : o.Of s)
    (hload : ∀ a u, s.urns.get a = some u → loaded u = true) :
    ∃ p s', ExtSet.toProto o = .ok p ∧ getExtensionSet loaded (.ofProto p) = .ok s' ∧
      (∀ k a, s'.decode k a = s.decode k a) ∧ ∀ rest c, Reg.ofSet rest c s' = Reg.ofSet rest c s := by
  obtain ⟨p, s', h1, h2, h3, h4, h5⟩ := C23_roundtrip_partial s o loaded ht hv ho hload
  exact ⟨p, s', h1, h2, h3, fun rest c => ofSet_same ⟨h3, h4, h5⟩ rest c⟩

/-- **C94 (partial)**: an extended expression is read back the same: expressions and measures with their names
in the same order, the base schema, and what every anchor stands for. Missing: references that cannot be carried
(`ExprRef.Sendable`, `Expr.Sendable`; in particular those with subqueries, `C94_negation`), and extension sets
that cannot be carried (C23, `C94_negation_twice`). -/
theorem C94_roundtrip_partial (rest : Reg) (c : Collection) (x : Extended) (o : Orders) (m : ExtendedMsg)
    (ht : x.set.Tidy) (hv : x.set.count .type = 0 ∨ x.set.count .variation ≤ 1) (ho : o.Of x.set)
    (hload : ∀ a u, x.set.urns.get a = some u → c.urnLoaded u = true)
    (hb : ∀ t ∈ x.base.types, t.Sendable)
    (hr : ∀ r ∈ x.refs, r.Sendable (Reg.ofSet rest.noSubqueries c x.set) (some x.base.types))
    (h : x.toProto rest c o = .ok m) :
    ∃ x', Extended.fromProto rest c m = .ok x' ∧ x'.SameAs x := by
  obtain ⟨p, s', h1, h2, h3, h4⟩ := registry_read_back ht hv ho hload
  simp only [Extended.toProto, h1, Res.ok_bind, Res.bind_eq_ok] at h
  obtain ⟨refs, hrefs, base, hbase, h⟩ := h
  cases h
  have e2 : getExtensionSet c.urnLoaded ⟨p.1, p.2.map some⟩ = .ok s' := h2
  have hrs := mapL_exact (g := ExprRef.fromProto (Reg.ofSet rest.noSubqueries c x.set) (some x.base.types)) x.refs refs
    (fun r hr' m hm => exprRef_exact (hr r hr') hm) hrefs
  refine ⟨⟨x.version, s', x.refs, x.base, x.adv, x.urls⟩, ?_, rfl, rfl, rfl, rfl, rfl, h3⟩
  simp only [Extended.fromProto, e2, Res.ok_bind, namedStruct_exact hb hbase, h4, hrs]

/-- **C94**: what is written: the references in order, each with its names and the message of its expression or
measure; the base schema, the URLs, the version and the advanced extensions. -/
theorem C94_wire (rest : Reg) (c : Collection) (x : Extended) (o : Orders) (m : ExtendedMsg)
    (h : x.toProto rest c o = .ok m) :
    m.version = x.version ∧ m.adv = x.adv ∧ m.urls = x.urls ∧
    (∃ b, x.base.toMsg = .ok b ∧ m.base = some b) ∧ m.refs.map ExprRefMsg.names = x.refs.map ExprRef.names ∧
    ∀ (i : Nat) (r : ExprRef), x.refs[i]? = some r → ∃ k, m.refs[i]? = some ⟨r.names, k⟩ ∧
      (r.expr ≠ .nil → ∃ e, r.expr.toProto (Reg.ofSet rest.noSubqueries c x.set) = .ok e ∧ k = .expr e) ∧
      (r.expr = .nil → ∀ f, r.measure = some f →
        ∃ a, f.toMsg (Reg.ofSet rest.noSubqueries c x.set) = .ok a ∧ k = .measure (some a)) := by
  simp only [Extended.toProto, Res.bind_eq_ok] at h
  obtain ⟨ext, hext, refs, hrefs, base, hbase, h⟩ := h
  cases h
  have hf := mapL_forall₂.1 hrefs
  have hone : ∀ (r : ExprRef) (q : ExprRefMsg), ExprRef.toProto (Reg.ofSet rest.noSubqueries c x.set) r = .ok q → ∃ k, q = ⟨r.names, k⟩ ∧
      (r.expr ≠ .nil → ∃ e, r.expr.toProto (Reg.ofSet rest.noSubqueries c x.set) = .ok e ∧ k = .expr e) ∧
      (r.expr = .nil → ∀ f, r.measure = some f →
        ∃ a, f.toMsg (Reg.ofSet rest.noSubqueries c x.set) = .ok a ∧ k = .measure (some a)) := by
    intro r q hq
    unfold ExprRef.toProto at hq
    split at hq
    · next hn =>
      have hn : r.expr = .nil := by
        cases he : r.expr <;> rw [he] at hn <;> first | rfl | cases hn
      split at hq
      · next hm =>
        cases hq
        exact ⟨_, rfl, fun h => absurd hn h, fun _ f hf => by rw [hm] at hf; cases hf⟩
      · next f hm =>
        simp only [Res.bind_eq_ok] at hq
        obtain ⟨a, ha, hq⟩ := hq
        cases hq
        refine ⟨_, rfl, fun h => absurd hn h, fun _ f' hf => ?_⟩
        rw [hm] at hf
        cases hf
        exact ⟨a, ha, rfl⟩
    · next hn =>
      simp only [Res.bind_eq_ok] at hq
      obtain ⟨a, ha, hq⟩ := hq
      cases hq
      refine ⟨_, rfl, fun _ => ⟨a, ha, rfl⟩, fun h => ?_⟩
      rw [h] at hn
      exact absurd rfl hn
  refine ⟨rfl, rfl, rfl, ⟨base, hbase, rfl⟩, ?_, ?_⟩
  · revert hf
    generalize x.refs = rs
    intro hf
    clear hrefs
    induction hf with
    | nil => rfl
    | cons h _ ih =>
      obtain ⟨k, rfl, _⟩ := hone _ _ h
      simp only [List.map_cons, ih]
  · revert hf
    generalize x.refs = rs
    intro hf
    clear hrefs
    induction hf with
    | nil => intro i r hr; simp at hr
    | cons h _ ih =>
      intro i r hr
      cases i with
      | zero =>
        simp only [List.getElem?_cons_zero, Option.some.injEq] at hr
        subst hr
        obtain ⟨k, rfl, h1, h2⟩ := hone _ _ h
        exact ⟨k, rfl, h1, h2⟩
      | succ i => exact ih i r (by simpa using hr)

/-- **C94**: whatever is done with the constructors and setters, a reference has an expression or a measure but
not both; so has every reference that was read. -/
theorem C94_one (r : ExprRef) (h : r.Made) : r.expr = .nil ∨ r.measure = none := by
  cases h with
  | ofExpr => exact .inr rfl
  | ofMeasure => exact .inl rfl
  | setExpr => exact .inr rfl
  | setMeasure => exact .inl rfl

/-- what a user does to a reference they made -/
inductive RefEdit where
  | expr (e : Expr)
  | measure (f : Option AggFn)

/-- the setter called -/
def RefEdit.apply (r : ExprRef) : RefEdit → ExprRef
  | .expr e => r.setExpr e
  | .measure f => r.setMeasure f

/-- **C94**: a reference holds what was set last, in the constructor or with a setter, and the names given to
the constructor. -/
theorem C94_last (names : List String) (r : ExprRef) (h : (∃ e, r = .ofExpr names e) ∨ ∃ f, r = .ofMeasure names f)
    (edits : List RefEdit) (last : RefEdit) :
    (r.names = names ∧ ∀ e, r = .ofExpr names e → r.expr = e ∧ r.measure = none) ∧
    (∀ f, r = .ofMeasure names f → r.expr = .nil ∧ r.measure = f) ∧
    ((edits ++ [last]).foldl RefEdit.apply r).names = names ∧
    (∀ e, last = .expr e → ((edits ++ [last]).foldl RefEdit.apply r).expr = e ∧
      ((edits ++ [last]).foldl RefEdit.apply r).measure = none) ∧
    ∀ f, last = .measure f → ((edits ++ [last]).foldl RefEdit.apply r).expr = .nil ∧
      ((edits ++ [last]).foldl RefEdit.apply r).measure = f := by
  have hn : r.names = names := by rcases h with ⟨e, rfl⟩ | ⟨f, rfl⟩ <;> rfl
  have step : ∀ (r : ExprRef) (x : RefEdit), (RefEdit.apply r x).names = r.names := by
    intro r x; cases x <;> rfl
  have key : ∀ (l : List RefEdit) (r : ExprRef), (l.foldl RefEdit.apply r).names = r.names := by
    intro l
    induction l with
    | nil => intro r; rfl
    | cons x l ih => intro r; rw [List.foldl_cons, ih, step]
  refine ⟨⟨hn, ?_⟩, ?_, by rw [key, hn], ?_, ?_⟩
  · rintro e rfl; exact ⟨rfl, rfl⟩
  · rintro f rfl; exact ⟨rfl, rfl⟩
  · rintro e rfl; rw [List.foldl_append]; exact ⟨rfl, rfl⟩
  · rintro f rfl; rw [List.foldl_append]; exact ⟨rfl, rfl⟩

-- a measure replaced by an expression
example (f : Option AggFn) : ∃ r : ExprRef,
    r = ([RefEdit.measure f] ++ [RefEdit.expr (.lit (.prim (.int32 1) (.prim .i32 2 0)))]).foldl RefEdit.apply (.ofMeasure ["a"] f) ∧
    r.names = ["a"] ∧ r.expr = .lit (.prim (.int32 1) (.prim .i32 2 0)) ∧ r.measure = none := by
  obtain ⟨_, _, h1, h2, _⟩ := C94_last ["a"] (.ofMeasure ["a"] f) (.inr ⟨f, rfl⟩) [.measure f]
    (.expr (.lit (.prim (.int32 1) (.prim .i32 2 0))))
  exact ⟨_, rfl, h1, h2 _ rfl⟩

/-- ... read -/
theorem C94_one_read (rest : Reg) (c : Collection) (m : ExtendedMsg) (x : Extended)
    (h : Extended.fromProto rest c m = .ok x) : ∀ r ∈ x.refs, r.expr = .nil ∨ r.measure = none := by
  simp only [Extended.fromProto, Res.bind_eq_ok] at h
  obtain ⟨s, _, b, _, refs, hr, h⟩ := h
  cases h
  have hf := mapL_forall₂.1 hr
  intro r hmem
  simp only at hmem
  generalize m.refs = ms at hf
  obtain ⟨q, hq⟩ : ∃ q, ExprRef.fromProto (Reg.ofSet rest.noSubqueries c s) (some b.types) q = .ok r := by
    clear hr
    induction hf with
    | nil => cases hmem
    | cons h _ ih =>
      rcases List.mem_cons.1 hmem with rfl | hmem
      · exact ⟨_, h⟩
      · exact ih hmem
  unfold ExprRef.fromProto at hq
  split at hq
  · cases hq
    exact .inl rfl
  · simp only [Res.bind_eq_ok] at hq
    obtain ⟨_, _, hq⟩ := hq
    cases hq
    exact .inr rfl
  · simp only [Res.bind_eq_ok] at hq
    obtain ⟨_, _, hq⟩ := hq
    cases hq
    exact .inl rfl

/-! ## Examples and negations -/

/-- the set with the function `f:i32` of the collection -/
def exOneSet : ExtSet :=
  match ExtSet.new.getAnchor .func ⟨"extension:acme:f", "f:i32"⟩ with
  | .ok r => r.2
  | _ => .new

/-- a call of `f` on the first column, called "y", and no expression, over rows of one `i32` -/
def exExtended : Extended :=
  ⟨some 1, exOneSet,
    [.ofExpr ["y"] (.scalar ⟨1, "f:i32", [], .prim .i32 2 0⟩
      [.expr (.fieldRef .rootReference (.seg (.structField 0 .nil)) (some (.prim .i32 2 0)))]),
     .ofExpr ["z"] .nil],
    ⟨["x"], 2, 0, [.prim .i32 2 0]⟩, none, ["url"]⟩

theorem exOneSet_tidy : exOneSet.Tidy :=
  C23_fresh_tidy [⟨.func, ⟨"extension:acme:f", "f:i32"⟩⟩] [⟨.func, ⟨"extension:acme:f", "f:i32"⟩⟩]
    (fun _ h => h) (by decide) [1] exOneSet rfl

theorem exOneSet_orders : exOneSet.orders.Of exOneSet := orders_of _

theorem exOneSet_loaded : ∀ a u, exOneSet.urns.get a = some u → oneCollection.urnLoaded u = true := by
  intro a u h
  rw [GoMap.get_eq_some] at h
  have he : exOneSet.urns.entries = [(1, "extension:acme:f")] := rfl
  rw [he, List.mem_singleton] at h
  cases h
  rfl

theorem exExtended_sendable : ∀ r ∈ exExtended.refs,
    r.Sendable (Reg.ofSet exReg.noSubqueries oneCollection exExtended.set) (some exExtended.base.types) := by
  intro r hr
  simp only [exExtended, List.mem_cons, List.not_mem_nil, or_false] at hr
  rcases hr with rfl | rfl
  · refine ⟨.inr ⟨?_, rfl⟩, fun f hf => by cases hf⟩
    simp only [ExprRef.ofExpr, Expr.Sendable, EArg.SendableList, EArg.Sendable, ERoot.Sendable]
    refine ⟨⟨⟨"extension:acme:f", "f:i32"⟩, rfl, .inl rfl⟩, by simp [Ty.Sendable, Ty.PrecisionsOk, Ty.NoCompound],
      ⟨trivial, by simp, by simp [Seg.KeysSendable], ?_⟩, trivial⟩
    exact ⟨_, .step _ _ _ _ _ (.field 0 0 _ _ _ _ rfl rfl) (.done _), rfl⟩
  · exact ⟨.inl rfl, fun f hf => by cases hf⟩

theorem exOneSet_written : ∃ p, ExtSet.toProto exOneSet.orders = .ok p := ⟨_, rfl⟩

theorem exExtended_written (rs : List ExprRef) (ms : List ExprRefMsg)
    (h : Res.mapL (ExprRef.toProto (Reg.ofSet exReg.noSubqueries oneCollection exOneSet)) rs = .ok ms) :
    ∃ m, Extended.toProto exReg oneCollection exOneSet.orders { exExtended with refs := rs } = .ok m ∧
      m.refs = ms := by
  obtain ⟨p, hp⟩ := exOneSet_written
  have hb : exExtended.base.toMsg = .ok ⟨["x"], some (2, 0, [.prim .i32 2 0])⟩ := by
    simp [exExtended, NamedStruct.toMsg, Res.mapL_cons, Res.mapL_nil, typeToProto, primToProto]
  refine ⟨⟨some 1, ⟨p.1, p.2.map some⟩, ms, some ⟨["x"], some (2, 0, [.prim .i32 2 0])⟩, none, ["url"]⟩, ?_, rfl⟩
  have e : exExtended.set = exOneSet := rfl
  simp only [Extended.toProto, hp, Res.ok_bind, e, h, hb]
  rfl

-- the hypotheses of `C94_roundtrip_partial` are met: the call of `f` is read back
example : ∃ m x', exExtended.toProto exReg oneCollection exOneSet.orders = .ok m ∧
    Extended.fromProto exReg oneCollection m = .ok x' ∧ x'.SameAs exExtended := by
  obtain ⟨m, hm⟩ : ∃ m, exExtended.toProto exReg oneCollection exOneSet.orders = .ok m := by
    obtain ⟨m, hm, _⟩ := exExtended_written exExtended.refs _ (by
      simp [exExtended, ExprRef.toProto, ExprRef.ofExpr, Expr.isNil, Expr.toProto, EArg.toProtoList, EArg.toProto,
        ERoot.toProto, refToProto, segToProto, segChildToProto, typeToProto, Res.mapL_cons, Res.mapL_nil]
      rfl)
    exact ⟨m, hm⟩
  obtain ⟨x', h1, h2⟩ := C94_roundtrip_partial exReg oneCollection exExtended _ m exOneSet_tidy (.inl rfl)
    exOneSet_orders exOneSet_loaded (by simp [exExtended, Ty.Sendable, Ty.PrecisionsOk, Ty.NoCompound])
    exExtended_sendable hm
  exact ⟨m, x', hm, h1, h2⟩

/-- a reference to a subquery -/
def exExtendedSub : Extended :=
  { exExtended with refs := [.ofExpr ["y"] (.scalarSubquery ⟨4, [.prim .i32 2 0]⟩)] }

/-- **C94 negation**: an extended expression with a subquery is written but not read back. -/
theorem C94_negation : ¬ C94_statement := by
  intro h
  obtain ⟨m, hm, hr⟩ := exExtended_written exExtendedSub.refs [⟨["y"], .expr (.scalarSubquery 4)⟩] (by
    simp [exExtendedSub, ExprRef.toProto, ExprRef.ofExpr, Expr.isNil, Expr.toProto, Res.mapL_cons, Res.mapL_nil,
      Reg.ofSet, Reg.noSubqueries, exReg])
  obtain ⟨x', h1, _⟩ := h exReg oneCollection exExtendedSub exOneSet.orders m exOneSet_orders exOneSet_loaded hm
  simp only [Extended.fromProto, Res.bind_eq_ok, hr, Res.mapL_cons, ExprRef.fromProto, Expr.fromProto, Reg.ofSet,
    Reg.noSubqueries] at h1
  obtain ⟨_, _, _, _, _, ⟨_, ⟨_, ⟨_, h1, _⟩, _⟩, _⟩, _⟩ := h1
  cases h1

/-- the message of an extended expression that declares the function `f:i32` twice, with anchors 1 and 2, and
calls the first -/
def exExtendedTwice : ExtendedMsg :=
  ⟨none, ⟨[(1, "extension:acme:f")], [some (.func 1 1 "f:i32"), some (.func 1 2 "f:i32")]⟩,
    [⟨["y"], .expr (.scalar 1 [] (some (.prim .i32 2 0)) [])⟩], none, none, []⟩

/-- **C94 negation: a function that is declared twice.** What was read and written cannot be read again. -/
theorem C94_negation_twice : ∃ x m, Extended.fromProto exReg oneCollection exExtendedTwice = .ok x ∧
    x.toProto exReg oneCollection x.set.orders = .ok m ∧ Extended.fromProto exReg oneCollection m = .err := by
  obtain ⟨s, h1, h2, h3, h4⟩ : ∃ s, getExtensionSet oneCollection.urnLoaded exExtendedTwice.ext = .ok s ∧
      ExtSet.toProto s.orders = .ok ([(1, "extension:acme:f")], [.func 1 2 "f:i32"]) ∧
      s.decode .func 1 = some ⟨"extension:acme:f", "f:i32"⟩ ∧
      s.declarationOf oneCollection .scalar 1 = some "f:i32" := ⟨_, rfl, rfl, rfl, rfl⟩
  obtain ⟨s', h5, h6⟩ : ∃ s', getExtensionSet oneCollection.urnLoaded
      ⟨[(1, "extension:acme:f")], [some (.func 1 2 "f:i32")]⟩ = .ok s' ∧ s'.decode .func 1 = none := ⟨_, rfl, rfl⟩
  refine ⟨⟨none, s, [.ofExpr ["y"] (.scalar ⟨1, "f:i32", [], .prim .i32 2 0⟩ [])], ⟨[], 0, 0, []⟩, none, []⟩,
    ⟨none, ⟨[(1, "extension:acme:f")], [some (.func 1 2 "f:i32")]⟩,
      [⟨["y"], .expr (.scalar 1 [] (some (.prim .i32 2 0)) [])⟩], some ⟨[], some (0, 0, [])⟩, none, []⟩, ?_, ?_, ?_⟩
  · simp only [Extended.fromProto, h1, Res.ok_bind]
    simp [exExtendedTwice, namedStructFromProto, Res.mapL_cons, Res.mapL_nil, ExprRef.fromProto, Expr.fromProto,
      EArg.fromProtoList, resolveCall, Reg.ofSet, h3, h4, typeFromProto, primFromProto, ExprRef.setExpr, ExprRef.ofExpr]
  · simp [Extended.toProto, h2, Res.mapL_cons, Res.mapL_nil, ExprRef.toProto, ExprRef.ofExpr, Expr.isNil, Expr.toProto,
      EArg.toProtoList, typeToProto, primToProto, NamedStruct.toMsg]
  · simp [Extended.fromProto, h5, namedStructFromProto, Res.mapL_cons, Res.mapL_nil, ExprRef.fromProto,
      Expr.fromProto, EArg.fromProtoList, resolveCall, Reg.ofSet, h6]

/-! ## C76 with the extensions of the plan -/

/-- **C76 (partial), with extensions.** A plan that can be carried, with an extension set that can be carried, is
read back the same, and every anchor stands for the same function, type or variation. Missing: as in
`C76_roundtrip_partial` and `C23_roundtrip_partial`. -/
theorem C76_extensions_partial (rest : RelReg) (c : Collection) (p : FullPlan) (o : Orders) (m : FullPlanMsg)
    (ht : p.set.Tidy) (hv : p.set.count .type = 0 ∨ p.set.count .variation ≤ 1) (ho : o.Of p.set)
    (hload : ∀ a u, p.set.urns.get a = some u → c.urnLoaded u = true)
    (hs : p.plan.Sendable (rest.ofSet c p.set)) (h : p.toProto rest c o = .ok m) :
    ∃ p', FullPlan.fromProto rest c m = .ok p' ∧ p'.plan = p.plan ∧ p'.version = p.version ∧ p'.adv = p.adv ∧
      ∀ k a, p'.set.decode k a = p.set.decode k a := by
  obtain ⟨e, s', h1, h2, h3, h4⟩ := registry_read_back ht hv ho hload
  simp only [FullPlan.toProto, h1, Res.ok_bind, Res.bind_eq_ok] at h
  obtain ⟨pm, hpm, h⟩ := h
  cases h
  have e2 : getExtensionSet c.urnLoaded ⟨e.1, e.2.map some⟩ = .ok s' := h2
  have e3 : rest.ofSet c s' = rest.ofSet c p.set := by unfold RelReg.ofSet; rw [h4]
  refine ⟨⟨p.plan, s', p.version, p.adv⟩, ?_, rfl, rfl, rfl, h3⟩
  simp only [FullPlan.fromProto, e2, Res.ok_bind, e3, C76_roundtrip_partial _ _ _ hs hpm]

/-- the call of `f` on the first column -/
def exCall : Expr :=
  .scalar ⟨1, "f:i32", [], .prim .i32 2 0⟩
    [.expr (.fieldRef .rootReference (.seg (.structField 0 .nil)) (some (.prim .i32 2 0)))]

/-- a plan that reads a table and filters with the call of `f` -/
def exFullPlan : FullPlan :=
  ⟨⟨[⟨none, some (.read {} ⟨⟨["x"], 2, 0, [.prim .i32 2 0]⟩, exCall, .nil, none, none⟩ (.named ["t"] none))⟩], [], []⟩,
    exOneSet, some 1, none⟩

theorem exCall_sendable : exCall.Sendable (exRelReg.ofSet oneCollection exOneSet).toReg (some [.prim .i32 2 0]) := by
  simp only [exCall, Expr.Sendable, EArg.SendableList, EArg.Sendable, ERoot.Sendable]
  refine ⟨⟨⟨"extension:acme:f", "f:i32"⟩, rfl, .inl rfl⟩, by simp [Ty.Sendable, Ty.PrecisionsOk, Ty.NoCompound],
    ⟨trivial, by simp, by simp [Seg.KeysSendable], ?_⟩, trivial⟩
  exact ⟨_, .step _ _ _ _ _ (.field 0 0 _ _ _ _ rfl rfl) (.done _), rfl⟩

-- the hypotheses of `C76_extensions_partial` are met
example : ∃ m p', exFullPlan.toProto exRelReg oneCollection exOneSet.orders = .ok m ∧
    FullPlan.fromProto exRelReg oneCollection m = .ok p' ∧ p'.plan = exFullPlan.plan := by
  obtain ⟨m, hm⟩ : ∃ m, exFullPlan.toProto exRelReg oneCollection exOneSet.orders = .ok m := by
    obtain ⟨p, hp⟩ := exOneSet_written
    have : (exFullPlan.toProto exRelReg oneCollection exOneSet.orders).isOk = true := by
      simp [FullPlan.toProto, hp, exFullPlan, exCall, Plan.toProto, Relation.toProto, Rel.toProto, NamedStruct.toMsg,
        ReadKind.toMsg, Expr.toProto, EArg.toProtoList, EArg.toProto, ERoot.toProto, refToProto, segToProto,
        segChildToProto, Expr.optToProto, typeToProto, Res.mapL_cons, Res.mapL_nil]
    cases h : exFullPlan.toProto exRelReg oneCollection exOneSet.orders with
    | ok m => exact ⟨m, rfl⟩
    | err => simp [h] at this
    | panic => simp [h] at this
  obtain ⟨p', h1, h2, _⟩ := C76_extensions_partial exRelReg oneCollection exFullPlan exOneSet.orders m exOneSet_tidy
    (.inl rfl) exOneSet_orders exOneSet_loaded (by
      refine ⟨?_, by simp [exFullPlan]⟩
      intro r hr
      rw [List.mem_singleton.1 hr]
      refine .inl ⟨_, rfl, ?_⟩
      rw [Rel.Sendable]
      exact ⟨by simp [Ty.Sendable, Ty.PrecisionsOk, Ty.NoCompound], .inr exCall_sendable, .inl rfl, by simp, trivial⟩)
    hm
  exact ⟨m, p', hm, h1, h2⟩

end Verif
