import Verif.Model.CallLookup
import Verif.Spec.CallLookup
import Verif.Props.FuncCall
import Verif.Props.Dialect
/-!
# C137: a call is found in a dialect as the function it was built with
-/

namespace Verif

/-! ## What a call tells -/

theorem getArgTypes_typed : ∀ {args : List EArg} {ts : List Ty}, List.Forall₂ EArg.HasType args ts →
    getArgTypes args = .ok (ts.map some)
  | _, _, .nil => rfl
  | _, _, .cons h hs => by
      have ih := getArgTypes_typed hs
      cases h with
      | expr h => simp [getArgTypes, ih, h]
      | enum => simp [getArgTypes, ih]
      | type => simp [getArgTypes, ih]

/-- C137: `GetArgTypes` of a call that `NewScalarFunc` built is the list of the types of the arguments in their order,
which the parameters of the declaration accept and for which it gives the type of the call; `GetOption` gives the
values of the first option of that name, and nothing if there is none. Missing: calls with a type as an argument
(`C137_negation_type`), and arguments whose type contains an `interval_day`, which resolving the call overwrites. -/
theorem C137_tells_partial (c : Collection) (s s' : ExtSet) (id : ExtId) (opts : List (String × List String))
    (args : List EArg) (e : Expr) (hc : c.Reachable) (hs : s.Tidy) (ha : ∀ a ∈ args, a.IsValue)
    (h : newScalarFunc c s id opts args = .ok (e, s')) :
    ∃ a v ts ret, e = .scalar a args ∧ getArgTypes args = .ok (ts.map some) ∧ ts.length = args.length ∧
      c.getFunc .scalar ⟨v.urn, a.declaration⟩ = some v ∧ v.impl.ret = some ret ∧
      (∃ after, matchArguments v.impl.nullability v.impl.args v.impl.variadic ts = .ok (true, after)) ∧
      evaluateTypeExpression (fun n => (s'.anchor .type ⟨v.urn, n⟩).getD 0) v.impl.nullability ret v.impl.args
        v.impl.variadic ts = .ok a.outputType ∧ e.getType = .ok a.outputType ∧
      (∀ pre o post, opts = pre ++ o :: post → (∀ p ∈ pre, p.1 ≠ o.1) → getOption a.options o.1 = o.2) ∧
      ∀ name, (∀ o ∈ opts, o.1 ≠ name) → getOption a.options name = [] := by
  obtain ⟨a, v, rfl, rfl, hcall⟩ := C84_scalar_partial c s s' id opts args e hc hs ha h
  obtain ⟨ts, ret, h1, h2, h3, h4⟩ := hcall.types
  refine ⟨a, v, ts, ret, rfl, getArgTypes_typed h1, h1.length_eq.symm, hcall.registered, h2, h3, h4, rfl, ?_, ?_⟩
  · intro pre o post e hp
    rw [e]
    clear e
    induction pre with
    | nil => simp [getOption]
    | cons p pre ih =>
        rw [List.cons_append, getOption, if_neg (fun e => hp p (by simp) e.symm)]
        exact ih fun q hq => hp q (by simp [hq])
  · intro name hn
    generalize a.options = os at hn
    induction os with
    | nil => rfl
    | cons o os ih =>
        rw [getOption, if_neg (fun e => hn o (by simp) e.symm)]
        exact ih fun q hq => hn q (by simp [hq])

/-- The types and options of a call of `f` with an `i32` -/
example : ∃ e s', newScalarFunc oneCollection .new ⟨"extension:acme:f", "f"⟩ [("o", ["p", "q"])] [exprOf .i32] = .ok (e, s') ∧
    getArgTypes [exprOf .i32] = .ok [some (.prim .i32 1 0)] ∧ getOption [("o", ["p", "q"])] "o" = ["p", "q"] :=
  ⟨_, _, rfl, rfl, rfl⟩

/-- **C137 is false of the code** with a type as an argument: the call has two argument types, but it was resolved
with one, and its declaration does not accept the two. -/
theorem C137_negation_type : ∃ e s' v, newScalarFunc oneCollection .new ⟨"extension:acme:f", "f"⟩ []
      [.type (.prim .i64 1 0), exprOf .i32] = .ok (e, s') ∧
    getArgTypes [.type (.prim .i64 1 0), exprOf .i32] = .ok [some (.prim .i64 1 0), some (.prim .i32 1 0)] ∧
    oneCollection.getFunc .scalar ⟨"extension:acme:f", "f:i32"⟩ = some v ∧
    matchArguments v.impl.nullability v.impl.args v.impl.variadic [.prim .i64 1 0, .prim .i32 1 0] =
      .ok (false, [.prim .i64 1 0, .prim .i32 1 0]) := by
  refine ⟨_, _, _, rfl, rfl, rfl, ?_⟩
  rfl

/-! ## Dialects -/

theorem nameAll_ok {r : LocalTypes} : ∀ {ts : List Ty},
    r.nameAll (ts.map some) = if ts.any (fun t => !(r.toLocal t).isOk) then .err else .ok ()
  | [] => rfl
  | t :: ts => by
      have ih := nameAll_ok (r := r) (ts := ts)
      simp only [List.map_cons, LocalTypes.nameAll, ih, List.any_cons]
      have ht : (∃ n, r.toLocal t = .ok n) ∨ r.toLocal t = .err := by
        unfold LocalTypes.toLocal
        cases r.infos.get t.shortString <;> simp
      rcases ht with ⟨n, hn⟩ | hn
      · simp [hn, Res.isOk]
      · simp [hn, Res.isOk]

theorem byCall_eq {fold : String → String → Bool} {r : LocalRegistry} {k : FuncKind} {id : ExtId} {args : List EArg}
    {ts : List Ty} {options : List (String × List String)} (h : List.Forall₂ EArg.HasType args ts) :
    r.byCall fold k id args options = r.byInvocation fold k ⟨id, ts, options⟩ := by
  unfold LocalRegistry.byCall LocalRegistry.byInvocation
  cases r.byId.get id with
  | none => rfl
  | some p =>
      simp only [getArgTypes_typed h, Res.ok_bind, nameAll_ok]
      split
      · rfl
      · rfl

/-- The full claim of C137 about dialects: if a dialect lists the function a call was built with, has names for the
types of the values among the arguments and allows the options, looking up the call gives the dialect's function. -/
def C137_statement : Prop :=
  ∀ (c : Collection) (s s' : ExtSet) (id : ExtId) (opts : List (String × List String)) (args : List EArg) (a : FnAttrs)
    (d : Dialect) (typeOrder : List (String × String × Bool)) (so ao wo : List FnInfo) (fs fa fw : List RegFn)
    (r : LocalRegistry) (fold : String → String → Bool) (f : LocalFn),
    c.Reachable → s.Tidy → (∀ a ∈ args, a.IsValue) → newScalarFunc c s id opts args = .ok (.scalar a args, s') →
    localizeFunctions d typeOrder so ao wo (functionsByName (processFunctions fs))
      (functionsByName (processFunctions fa)) (functionsByName (processFunctions fw)) = .ok r →
    r.Lists .scalar ⟨id.urn, a.declaration⟩ f → r.NamesValues args → f.Allows fold opts →
    r.byCall fold .scalar ⟨id.urn, a.declaration⟩ args opts = .ok f

/-- the decision for a call whose arguments have types -/
theorem lookup_of {d : Dialect} {typeOrder : List (String × String × Bool)}
    {so ao wo : List FnInfo} {fs fa fw : List RegFn} {r : LocalRegistry}
    (hr : localizeFunctions d typeOrder so ao wo (functionsByName (processFunctions fs))
      (functionsByName (processFunctions fa)) (functionsByName (processFunctions fw)) = .ok r)
    (fold : String → String → Bool) {k : FuncKind} {id : ExtId} {f : LocalFn} (hl : r.Lists k id f)
    {args : List EArg} {ts : List Ty} (h : List.Forall₂ EArg.HasType args ts) (opts : List (String × List String)) :
    ((∀ t ∈ ts, ∃ n, r.types.toLocal t = .ok n) ∧ f.Allows fold opts →
      r.byCall fold k id args opts = .ok f) ∧
    (¬ ((∀ t ∈ ts, ∃ n, r.types.toLocal t = .ok n) ∧ f.Allows fold opts) →
      r.byCall fold k id args opts = .err) := by
  rw [byCall_eq h]
  obtain ⟨g1, g2⟩ := C51_decision hr fold k k ⟨id, ts, opts⟩ hl.mem hl.named hl.options
    (fun k'' hk => hl.only k'' fun e => by subst e; exact absurd hk (Nat.lt_irrefl _))
  exact ⟨fun h => by rw [g1 h, if_pos rfl], g2⟩

/-- **C137, partial**, for scalar functions: a call is found exactly if the dialect has names for the types of all its
arguments and allows its options, and there is an error otherwise. Missing from the full statement: calls with
enumeration values, whose type no dialect can name (`C137_negation`). -/
theorem C137_scalar_partial (c : Collection) (s s' : ExtSet) (id : ExtId) (opts : List (String × List String))
    (args : List EArg) (e : Expr) (hc : c.Reachable) (hs : s.Tidy) (ha : ∀ a ∈ args, ∃ x, a = .expr x)
    (h : newScalarFunc c s id opts args = .ok (e, s'))
    {d : Dialect} {typeOrder : List (String × String × Bool)} {so ao wo : List FnInfo} {fs fa fw : List RegFn}
    {r : LocalRegistry} (hr : localizeFunctions d typeOrder so ao wo (functionsByName (processFunctions fs))
      (functionsByName (processFunctions fa)) (functionsByName (processFunctions fw)) = .ok r)
    (fold : String → String → Bool) :
    ∃ a, e = .scalar a args ∧ ∀ f, r.Lists .scalar ⟨id.urn, a.declaration⟩ f →
      (r.NamesValues args ∧ f.Allows fold opts →
        r.byCall fold .scalar ⟨id.urn, a.declaration⟩ args a.options = .ok f) ∧
      (¬ (r.NamesValues args ∧ f.Allows fold opts) →
        r.byCall fold .scalar ⟨id.urn, a.declaration⟩ args a.options = .err) := by
  obtain ⟨a, v, rfl, rfl, hcall⟩ := C84_scalar_partial c s s' id opts args e hc hs
    (fun a h => by obtain ⟨x, rfl⟩ := ha a h; exact .expr) h
  obtain ⟨ts, ret, h1, -⟩ := hcall.types
  have key : (∀ t ∈ ts, ∃ n, r.types.toLocal t = .ok n) ↔ r.NamesValues args := by
    unfold LocalRegistry.NamesValues
    clear hcall h
    induction h1 with
    | nil => simp
    | cons h hs ih =>
        have ih := ih fun a h => ha a (by simp [h])
        obtain ⟨x, rfl⟩ := ha _ (List.mem_cons_self ..)
        cases h with
        | expr h =>
            constructor
            · intro g e he
              rcases List.mem_cons.1 he with he | he
              · cases he
                obtain ⟨n, hn⟩ := g _ (List.mem_cons_self ..)
                exact ⟨_, n, h, hn⟩
              · exact ih.1 (fun t ht => g t (List.mem_cons_of_mem _ ht)) e he
            · intro g t ht
              rcases List.mem_cons.1 ht with rfl | ht
              · obtain ⟨u, n, hu, hn⟩ := g x (List.mem_cons_self ..)
                rw [h] at hu
                cases hu
                exact ⟨n, hn⟩
              · exact ih.2 (fun e he => g e (List.mem_cons_of_mem _ he)) t ht
  refine ⟨a, rfl, fun f hl => ?_⟩
  rw [← key]
  exact lookup_of hr fold hl h1 a.options

/-- ... the same for window functions -/
theorem C137_window_partial (c : Collection) (s s' : ExtSet) (id : ExtId) (opts : List (String × List String))
    (invocation phase : Int32) (args : List EArg) (e : Expr) (hc : c.Reachable) (hs : s.Tidy)
    (ha : ∀ a ∈ args, a.IsValue) (h : newWindowFunc c s id opts invocation phase args = .ok (e, s'))
    {d : Dialect} {typeOrder : List (String × String × Bool)} {so ao wo : List FnInfo} {fs fa fw : List RegFn}
    {r : LocalRegistry} (hr : localizeFunctions d typeOrder so ao wo (functionsByName (processFunctions fs))
      (functionsByName (processFunctions fa)) (functionsByName (processFunctions fw)) = .ok r)
    (fold : String → String → Bool) :
    ∃ a w ts, e = .window a w args [] [] ∧ List.Forall₂ EArg.HasType args ts ∧
      ∀ f, r.Lists .window ⟨id.urn, a.declaration⟩ f →
      ((∀ t ∈ ts, ∃ n, r.types.toLocal t = .ok n) ∧ f.Allows fold opts →
        r.byCall fold .window ⟨id.urn, a.declaration⟩ args a.options = .ok f) ∧
      (¬ ((∀ t ∈ ts, ∃ n, r.types.toLocal t = .ok n) ∧ f.Allows fold opts) →
        r.byCall fold .window ⟨id.urn, a.declaration⟩ args a.options = .err) := by
  obtain ⟨a, w, v, rfl, -, -, rfl, hcall⟩ := C84_window_partial c s s' id opts invocation phase args e hc hs ha h
  obtain ⟨ts, ret, h1, -⟩ := hcall.types
  exact ⟨a, w, ts, rfl, h1, fun f hl => lookup_of hr fold hl h1 a.options⟩

/-- ... and for aggregate functions -/
theorem C137_aggregate_partial (c : Collection) (s s' : ExtSet) (id : ExtId) (opts : List (String × List String))
    (invocation phase : Int32) (sorts : List ESort) (args : List EArg) (g : AggFn) (hc : c.Reachable) (hs : s.Tidy)
    (ha : ∀ a ∈ args, a.IsValue) (h : newAggregateFunc c s id opts invocation phase sorts args = .ok (g, s'))
    {d : Dialect} {typeOrder : List (String × String × Bool)} {so ao wo : List FnInfo} {fs fa fw : List RegFn}
    {r : LocalRegistry} (hr : localizeFunctions d typeOrder so ao wo (functionsByName (processFunctions fs))
      (functionsByName (processFunctions fa)) (functionsByName (processFunctions fw)) = .ok r)
    (fold : String → String → Bool) :
    ∃ ts, g.args = args ∧ List.Forall₂ EArg.HasType args ts ∧
      ∀ f, r.Lists .aggregate ⟨id.urn, g.a.declaration⟩ f →
      ((∀ t ∈ ts, ∃ n, r.types.toLocal t = .ok n) ∧ f.Allows fold opts →
        r.byCall fold .aggregate ⟨id.urn, g.a.declaration⟩ g.args g.a.options = .ok f) ∧
      (¬ ((∀ t ∈ ts, ∃ n, r.types.toLocal t = .ok n) ∧ f.Allows fold opts) →
        r.byCall fold .aggregate ⟨id.urn, g.a.declaration⟩ g.args g.a.options = .err) := by
  obtain ⟨rfl, -, -, -, rfl, v, hcall⟩ := C84_aggregate_partial c s s' id opts invocation phase sorts args g hc hs ha h
  obtain ⟨ts, ret, h1, -⟩ := hcall.types
  exact ⟨ts, rfl, h1, fun f hl => lookup_of hr fold hl h1 g.a.options⟩

/-- no dialect has a name for such a type -/
theorem unlisted_none {supported : List (String × String × Bool)} {r : LocalTypes}
    (hr : localizeTypes supported = .ok r) {t : Ty} (ht : t.Unlisted) : r.toLocal t = .err := by
  obtain ⟨infos, rfl, hf⟩ := localizeTypes_ok hr
  have key : ∀ k : String, (longTypeNames.all fun p => decide (p.2.shortString ≠ k) && decide (p.2.registryName ≠ k)) = true →
      (newLocalTypes infos).infos.get k = none := by
    intro k hk
    cases hi : (newLocalTypes infos).infos.get k with
    | none => rfl
    | some ti =>
        exfalso
        rcases (foldl_infos infos ⟨.empty, .empty, .empty⟩ k).1 ti hi with ⟨hm, hs⟩ | hn
        · obtain ⟨e, -, he, -⟩ := forall₂_mem_right hf hm
          obtain ⟨p, hp, -, hpt⟩ := nameToType_mem he
          have := List.all_eq_true.1 hk p hp
          simp only [Bool.and_eq_true, decide_eq_true_eq] at this
          rw [hpt] at this
          rcases hs with hs | hs
          · exact this.1 hs
          · exact this.2 hs
        · cases hn
  have hn : (newLocalTypes infos).infos.get t.shortString = none := by
    cases t with
    | enum => exact key "req" (by decide +kernel)
    | struct => exact key "struct" (by decide +kernel)
    | func => exact key "func" (by decide +kernel)
    | list => exact key "list" (by decide +kernel)
    | map => exact key "map" (by decide +kernel)
    | intervalCompound => exact key "icompound" (by decide +kernel)
    | _ => exact ht.elim
  simp only [LocalTypes.toLocal, hn]

theorem nameAll_mem {r : LocalTypes} {t : Ty} (h : r.toLocal t = .err) : ∀ {ts : List (Option Ty)}, some t ∈ ts →
    r.nameAll ts ≠ .ok ()
  | [], hm => by simp at hm
  | none :: ts, _ => by simp [LocalTypes.nameAll]
  | some u :: ts, hm => by
      intro e
      simp only [LocalTypes.nameAll, Res.bind_eq_ok] at e
      obtain ⟨n, hn, e⟩ := e
      rcases List.mem_cons.1 hm with hu | hm
      · cases hu
        rw [h] at hn
        cases hn
      · exact nameAll_mem h hm e

/-- **C137 is false of the code**: whatever the dialect lists, no call with an enumeration value among its arguments is
found in it, nor one with an argument of a nested, function or compound interval type. -/
theorem C137_negation_enum {d : Dialect} {typeOrder : List (String × String × Bool)} {so ao wo : List FnInfo}
    {fs fa fw : List RegFn} {r : LocalRegistry}
    (hr : localizeFunctions d typeOrder so ao wo (functionsByName (processFunctions fs))
      (functionsByName (processFunctions fa)) (functionsByName (processFunctions fw)) = .ok r)
    (fold : String → String → Bool) (k : FuncKind) (id : ExtId) (args : List EArg) (opts : List (String × List String))
    (f : LocalFn) (h : ∃ a ∈ args, ∃ t, EArg.HasType a t ∧ t.Unlisted) : r.byCall fold k id args opts ≠ .ok f := by
  obtain ⟨a, ha, t, hat, ht⟩ := h
  obtain ⟨htypes, -⟩ := localizeFunctions_ok hr
  have herr := unlisted_none htypes ht
  intro e
  unfold LocalRegistry.byCall at e
  split at e
  · cases e
  · simp only [Res.bind_eq_ok] at e
    obtain ⟨ts, h1, u, h2, -⟩ := e
    have hm : ∀ {args : List EArg} {ts}, getArgTypes args = .ok ts → a ∈ args → some t ∈ ts := by
      clear h1 h2 ts ha
      intro args
      induction args with
      | nil => intro ts _ h; simp at h
      | cons b bs ih =>
          intro ts hts hmem
          rcases List.mem_cons.1 hmem with rfl | hin
          · cases hat with
            | expr h =>
                simp only [getArgTypes, Res.bind_eq_ok, h] at hts
                obtain ⟨u, hu, us, -, e⟩ := hts
                cases hu; cases e; simp
            | enum =>
                simp only [getArgTypes, Res.bind_eq_ok] at hts
                obtain ⟨us, -, e⟩ := hts
                cases e; simp
            | type =>
                simp only [getArgTypes, Res.bind_eq_ok] at hts
                obtain ⟨us, -, e⟩ := hts
                cases e; simp
          · cases b <;> simp only [getArgTypes, Res.bind_eq_ok] at hts
            case expr => obtain ⟨u, -, us, hus, e⟩ := hts; cases e; simp [ih hus hin]
            all_goals (obtain ⟨us, hus, e⟩ := hts; cases e; simp [ih hus hin])
    exact nameAll_mem herr (hm h1 ha) h2

/-- a function `f` of an enumeration and an `i32` -/
def enumFile : ExtFile :=
  fileOf [⟨"f", "", [⟨[.enum "part" ["YEAR"], .value (.prim .i32 1 0)], some (.prim .i32 1 0), none, "", "", .mirror, none,
    {}⟩], false, false⟩] [] []

/-- the collection with that extension -/
def enumCollection : Collection := (Collection.zero.load (some enumFile)).1

/-- its entry in the dialect -/
def exEnumInfo : FnInfo := ⟨⟨"extension:acme:f", "f:req_i32"⟩, "f", "F", [], .pre⟩

/-- ... and in the registry of functions -/
def exEnumFn : RegFn := ⟨⟨"extension:acme:f", "f:req_i32"⟩, "f", [.enum "part" ["YEAR"], .value (.prim .i32 1 0)], none⟩

/-- a dialect with `i32` and this function -/
def exEnumDialect : Dialect := ⟨[("i32", "INT", true)], ⟨[(exEnumInfo.id, exEnumInfo)], by decide⟩, .empty, .empty⟩

/-- **C137 is false of the code**: a dialect that lists `f` and the type `i32` refuses `f(YEAR, x)`. -/
theorem C137_negation : ¬ C137_statement := by
  intro h
  obtain ⟨a, s', h1, h2⟩ : ∃ a s', newScalarFunc enumCollection .new ⟨"extension:acme:f", "f"⟩ []
      [.enum "YEAR", exprOf .i32] = .ok (.scalar a [.enum "YEAR", exprOf .i32], s') ∧ a.declaration = "f:req_i32" :=
    ⟨_, _, rfl, rfl⟩
  obtain ⟨r, hr, hs, ha, hw, hv⟩ : ∃ r, localizeFunctions exEnumDialect exEnumDialect.types [exEnumInfo] [] []
      (functionsByName (processFunctions [exEnumFn])) (functionsByName (processFunctions []))
      (functionsByName (processFunctions [])) = .ok r ∧ r.ofKind .scalar = [⟨exEnumFn, "F", [], .pre⟩] ∧
      r.ofKind .aggregate = [] ∧ r.ofKind .window = [] ∧ r.types.toLocal (.prim .i32 1 0) = .ok "INT" :=
    ⟨_, rfl, rfl, rfl, rfl, rfl⟩
  have := h enumCollection .new s' _ [] _ a _ _ _ _ _ _ _ _ r (fun a b => a = b) ⟨exEnumFn, "F", [], .pre⟩
    (.load _ _ .zero) new_tidy (by
      intro b hb
      simp only [List.mem_cons, List.not_mem_nil, or_false] at hb
      rcases hb with rfl | rfl
      · exact .enum
      · exact .expr) h1 hr
    ⟨by rw [hs]; simp, by rw [h2]; rfl, by simp, by
      intro k hk g hg
      cases k
      · exact absurd rfl hk
      · rw [ha] at hg; cases hg
      · rw [hw] at hg; cases hg⟩
    (by
      intro x hx
      simp only [List.mem_cons, List.not_mem_nil, or_false, reduceCtorEq, false_or, exprOf] at hx
      cases hx
      exact ⟨_, _, rfl, hv⟩)
    (by intro o ho; cases ho)
  exact C137_negation_enum hr _ _ _ _ _ _ ⟨_, List.mem_cons_self .., _, .enum, trivial⟩ this

/-- The hypotheses of `C137_scalar_partial` are met: `f` is called with an `i32`, in a dialect that writes it `F`. -/
example : ∃ a s' r, newScalarFunc oneCollection .new ⟨"extension:acme:f", "f"⟩ [("o", ["p"])] [exprOf .i32] =
      .ok (.scalar a [exprOf .i32], s') ∧
    localizeFunctions ⟨[("i32", "INT", true)], ⟨[(⟨"extension:acme:f", "f:i32"⟩, ⟨⟨"extension:acme:f", "f:i32"⟩, "f", "F",
        [("o", ["p"])], .pre⟩)], by decide⟩, .empty, .empty⟩ [("i32", "INT", true)]
      [⟨⟨"extension:acme:f", "f:i32"⟩, "f", "F", [("o", ["p"])], .pre⟩] [] []
      (functionsByName (processFunctions [⟨⟨"extension:acme:f", "f:i32"⟩, "f", [.value (.prim .i32 1 0)], none⟩]))
      (functionsByName (processFunctions [])) (functionsByName (processFunctions [])) = .ok r ∧
    r.byCall (fun a b => a = b) .scalar ⟨"extension:acme:f", a.declaration⟩ [exprOf .i32] a.options =
      .ok ⟨⟨⟨"extension:acme:f", "f:i32"⟩, "f", [.value (.prim .i32 1 0)], none⟩, "F", [("o", ["p"])], .pre⟩ :=
  ⟨_, _, _, rfl, rfl, rfl⟩

/-- ... and those for windows and aggregates -/
example : (∃ e s', newWindowFunc (Collection.zero.load (some (fileOf [] [] [declOf "f" [.i32]]))).1 .new
      ⟨"extension:acme:f", "f:i32"⟩ [] 1 3 [exprOf .i32] = .ok (e, s')) ∧
    ∃ g s', newAggregateFunc (Collection.zero.load (some (fileOf [] [declOf "f" [.i32]] []))).1 .new
      ⟨"extension:acme:f", "f:i32"⟩ [] 1 3 [] [exprOf .i32] = .ok (g, s') := ⟨⟨_, _, rfl⟩, _, _, rfl⟩

end Verif
