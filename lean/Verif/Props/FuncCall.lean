import Verif.Lemmas.FuncCall
import Verif.Props.Collection
import Verif.Props.ExprProto
/-!
# C84, C85, C86, C87: building function calls
-/

namespace Verif

/-! ## C84: a built call is a call of a matching registered implementation -/

/-- C84, as stated, for scalar functions: a call that `NewScalarFunc` builds is a call, with the options
and arguments given, of a registered implementation whose parameters accept all the arguments. -/
def C84_statement : Prop :=
  ∀ (c : Collection) (s s' : ExtSet) (id : ExtId) (opts : List (String × List String))
    (args : List EArg) (e : Expr), c.Reachable → s.Tidy →
    newScalarFunc c s id opts args = .ok (e, s') →
    ∃ a v, e = .scalar a args ∧ a.options = opts ∧ CallsImpl c .scalar s' id args a v

/-- **C84 (partial)** for scalar functions, when no argument is a type or nil. -/
theorem C84_scalar_partial (c : Collection) (s s' : ExtSet) (id : ExtId)
    (opts : List (String × List String)) (args : List EArg) (e : Expr) (hc : c.Reachable) (hs : s.Tidy)
    (ha : ∀ a ∈ args, a.IsValue) (h : newScalarFunc c s id opts args = .ok (e, s')) :
    ∃ a v, e = .scalar a args ∧ a.options = opts ∧ CallsImpl c .scalar s' id args a v := by
  simp only [newScalarFunc, Res.bind_eq_ok] at h
  obtain ⟨⟨v, out, s1⟩, h1, ⟨a, s2⟩, h2, e⟩ := h
  cases e
  obtain ⟨g1, g2⟩ := calls_of (reachable_sorted hc) hs ha h1 h2
  exact ⟨a, v, rfl, g2, g1⟩

/-- **C84 (partial)** for window functions; phase and invocation are those given. -/
theorem C84_window_partial (c : Collection) (s s' : ExtSet) (id : ExtId)
    (opts : List (String × List String)) (invocation phase : Int32) (args : List EArg) (e : Expr)
    (hc : c.Reachable) (hs : s.Tidy) (ha : ∀ a ∈ args, a.IsValue)
    (h : newWindowFunc c s id opts invocation phase args = .ok (e, s')) :
    ∃ a w v, e = .window a w args [] [] ∧ w.phase = phase ∧ w.invocation = invocation ∧
      a.options = opts ∧ CallsImpl c .window s' id args a v := by
  simp only [newWindowFunc, Res.bind_eq_ok] at h
  obtain ⟨⟨v, out, s1⟩, h1, h⟩ := h
  simp only at h
  split at h
  · cases h
  simp only [Res.bind_eq_ok] at h
  obtain ⟨⟨a, s2⟩, h2, e⟩ := h
  cases e
  obtain ⟨g1, g2⟩ := calls_of (reachable_sorted hc) hs ha h1 h2
  exact ⟨a, _, v, rfl, rfl, rfl, g2, g1⟩

/-- **C84 (partial)** for aggregate functions; phase, invocation and sort fields are those given. -/
theorem C84_aggregate_partial (c : Collection) (s s' : ExtSet) (id : ExtId)
    (opts : List (String × List String)) (invocation phase : Int32) (sorts : List ESort)
    (args : List EArg) (f : AggFn) (hc : c.Reachable) (hs : s.Tidy) (ha : ∀ a ∈ args, a.IsValue)
    (h : newAggregateFunc c s id opts invocation phase sorts args = .ok (f, s')) :
    f.args = args ∧ f.phase = phase ∧ f.invocation = invocation ∧ f.sorts = sorts ∧
      f.a.options = opts ∧ ∃ v, CallsImpl c .aggregate s' id args f.a v := by
  simp only [newAggregateFunc, Res.bind_eq_ok] at h
  obtain ⟨⟨v, out, s1⟩, h1, ⟨a, s2⟩, h2, e⟩ := h
  cases e
  obtain ⟨g1, g2⟩ := calls_of (reachable_sorted hc) hs ha h1 h2
  exact ⟨rfl, rfl, rfl, rfl, g2, v, g1⟩

/-- A call of a registered implementation is declared in the registry made of the set afterwards, for
every kind of function. -/
theorem declared_of_calls {rest : Reg} {c : Collection} {k : FuncKind} {s : ExtSet} {id : ExtId}
    {args : List EArg} {a : FnAttrs} {v : Variant} (h : CallsImpl c k s id args a v) :
    DeclaredIn (Reg.ofSet rest c s) (s.declarationOf c k) a := by
  refine ⟨⟨v.urn, a.declaration⟩, h.reference, .inl ?_⟩
  simp only [ExtSet.declarationOf, ExtSet.lookupFunc, h.reference, h.registered, h.compound]

/-- **C84 (partial)**: the built call is written to a message and read back, by a registry of the same
collection and the set afterwards, as the same call, if its arguments and its type can be carried by
a message. -/
theorem C84_roundtrip_partial (rest : Reg) (base : Option (List Ty)) (c : Collection) (s s' : ExtSet)
    (id : ExtId) (opts : List (String × List String)) (args : List EArg) (e : Expr) (m : ExprMsg)
    (hc : c.Reachable) (hs : s.Tidy) (ha : ∀ a ∈ args, a.IsValue)
    (h : newScalarFunc c s id opts args = .ok (e, s'))
    (hargs : EArg.SendableList (Reg.ofSet rest c s') base args)
    (hty : ∀ t, e.getType = .ok t → t.Sendable)
    (hm : e.toProto (Reg.ofSet rest c s') = .ok m) :
    Expr.fromProto (Reg.ofSet rest c s') base m = .ok e := by
  obtain ⟨a, v, rfl, _, hcall⟩ := C84_scalar_partial c s s' id opts args e hc hs ha h
  refine C72_roundtrip_partial _ _ _ _ ?_ hm
  rw [Expr.Sendable]
  exact ⟨declared_of_calls hcall, hty _ rfl, hargs⟩

/-- an extension with a function `f` of one `i32` -/
def oneFile : ExtFile := fileOf [declOf "f" [.i32]] [] []

/-- the collection with that extension -/
def oneCollection : Collection := (Collection.zero.load (some oneFile)).1

theorem one_reachable : oneCollection.Reachable := .load _ _ .zero

/-- an argument of a type -/
def exprOf (t : Prim) : EArg := .expr (.dynParam (.prim t 1 0) 0)

/-- the new set -/
theorem new_tidy : ExtSet.new.Tidy := (freshInv_new []).tidy

/-- The hypotheses of the theorems are met: `f` is called with an `i32`. -/
example : ∃ e s', newScalarFunc oneCollection .new ⟨"extension:acme:f", "f"⟩ [("o", ["p"])] [exprOf .i32] =
    .ok (e, s') ∧ e.getType = .ok (.prim .i32 1 0) := ⟨_, _, rfl, rfl⟩

/-- C84 as stated is false: a type given as an argument is ignored, so `f`, which has one parameter, can
be called with two arguments. -/
theorem C84_negation : ¬ C84_statement := by
  intro h
  obtain ⟨e, s', he⟩ : ∃ e s', newScalarFunc oneCollection .new ⟨"extension:acme:f", "f"⟩ []
    [.type (.prim .i64 1 0), exprOf .i32] = .ok (e, s') := ⟨_, _, rfl⟩
  obtain ⟨a, v, rfl, _, hcall⟩ := h _ _ _ _ _ _ _ one_reachable new_tidy he
  obtain ⟨w, hw, hlen, hvar⟩ : ∃ w, oneCollection.getFunc .scalar ⟨"extension:acme:f", "f:i32"⟩ = some w ∧
    w.impl.args.length = 1 ∧ w.impl.variadic = none := ⟨_, rfl, rfl, rfl⟩
  have hd : a.declaration = "f:i32" := by
    cases he
    rfl
  have hr := hcall.registered
  rw [hd, hcall.urn, hw] at hr
  cases hr
  obtain ⟨ts, _, hts, _, ⟨after, hm⟩, _⟩ := hcall.types
  have hl := hts.length_eq
  simp only [List.length_cons, List.length_nil] at hl
  rw [hvar] at hm
  simp only [matchArguments, matchCount, Res.ok_bind, ← hl, hlen] at hm
  simp at hm

/-! ## C85: a declared implementation can be called by the function's name -/

/-- C85, as stated: an implementation declared in a loaded file, the only one of the function with its
signature, can be called by the function's name with any arguments it accepts. -/
def C85_statement : Prop :=
  ∀ (c c' : Collection) (f : ExtFile) (s : ExtSet) (p : FuncKind × FuncDecl) (i : Impl) (k : FuncKind)
    (sig : String) (opts : List (String × List String)) (args : List EArg) (ts : List Ty),
    c.Reachable → f.PlainNames → c.load (some f) = (c', .ok ()) → p ∈ f.declared → i ∈ p.2.impls →
    p.1.ServesAs k → f.OnlyOne k p.2.name i → signatureKey i.args = .ok sig → s.Room →
    (∀ a ∈ args, a.IsValue) → List.Forall₂ EArg.HasType args ts → i.Accepts ts →
    BuildsCall c' k s ⟨f.urn, p.2.name⟩ opts args (p.2.name ++ ":" ++ sig)

/-- the implementation found under the compound name of the only one with the signature -/
theorem found_only {c c' : Collection} {f : ExtFile} (hc : c.Reachable) (hn : f.PlainNames)
    (h : c.load (some f) = (c', .ok ())) {p : FuncKind × FuncDecl} (hp : p ∈ f.declared) {i : Impl}
    (hi : i ∈ p.2.impls) {k : FuncKind} (hk : p.1.ServesAs k) (ho : f.OnlyOne k p.2.name i) {sig : String}
    (hs : signatureKey i.args = .ok sig) :
    ∃ v, c'.getFunc k ⟨f.urn, p.2.name ++ ":" ++ sig⟩ = some v ∧ v.Presents f.urn p.2.name i ∧
      v.compoundName = .ok (p.2.name ++ ":" ++ sig) := by
  obtain ⟨v, hv, ⟨q, hq, hqk, j, hj, hpr⟩, hcn⟩ := C67_found c c' f hc h p hp i hi k hk sig hs
  have hsj : v.compoundName = signatureKey j.args >>= fun s => .ok (q.2.name ++ ":" ++ s) := by
    rw [Variant.compoundName, hpr.2.2.1, hpr.2.1]
  have hname : q.2.name = p.2.name := by
    rw [hsj, Res.bind_eq_ok] at hcn
    obtain ⟨s', _, e⟩ := hcn
    simp only [Res.ok.injEq] at e
    exact name_of_compound e (hn q hq) (hn p hp)
  have hsig : signatureKey j.args = signatureKey i.args := by
    rw [hsj, Res.bind_eq_ok] at hcn
    obtain ⟨s', hs', e⟩ := hcn
    simp only [Res.ok.injEq] at e
    rw [hname] at e
    rw [hs', hs, (String.append_right_inj _).1 e]
  rw [ho q hq hname hqk j hj hsig, hname] at hpr
  exact ⟨v, hv, hpr, hcn⟩

theorem builds_presented {c : Collection} {k : FuncKind} {s : ExtSet} {id : ExtId} {args : List EArg}
    {ts : List Ty} {v : Variant} {n urn name : String} {i : Impl} (opts : List (String × List String))
    (hr : s.Room) (ha : ∀ a ∈ args, a.IsValue) (ht : List.Forall₂ EArg.HasType args ts)
    (hv : findVariant s (c.getFunc k) id ts = .ok v) (hn : v.compoundName = .ok n)
    (hp : v.Presents urn name i) (hacc : i.Accepts ts) : BuildsCall c k s id opts args n := by
  obtain ⟨ret, anchor, out, hret, he⟩ := hacc
  obtain ⟨_, _, p1, p2, _, p4, p5, _⟩ := hp
  refine builds_found opts hr.1 hr.2.1 hr.2.2 (callTypes_of ht ha) hv hn (p2.trans hret) (f := anchor)
    (out := out) ?_
  rw [p4, p1, p5]
  exact he

/-- **C85 (partial)**: by its compound name, the implementation can always be called. -/
theorem C85_compound_partial (c c' : Collection) (f : ExtFile) (s : ExtSet) (p : FuncKind × FuncDecl)
    (i : Impl) (k : FuncKind) (sig : String) (opts : List (String × List String)) (args : List EArg)
    (ts : List Ty) (hc : c.Reachable) (hn : f.PlainNames) (h : c.load (some f) = (c', .ok ()))
    (hp : p ∈ f.declared) (hi : i ∈ p.2.impls) (hk : p.1.ServesAs k) (ho : f.OnlyOne k p.2.name i)
    (hs : signatureKey i.args = .ok sig) (hr : s.Room) (ha : ∀ a ∈ args, a.IsValue)
    (ht : List.Forall₂ EArg.HasType args ts) (hacc : i.Accepts ts) :
    BuildsCall c' k s ⟨f.urn, p.2.name ++ ":" ++ sig⟩ opts args (p.2.name ++ ":" ++ sig) := by
  obtain ⟨v, hv, hpr, hcn⟩ := found_only hc hn h hp hi hk ho hs
  refine builds_presented opts hr ha ht ?_ hcn hpr hacc
  simp only [findVariant, hv]

/-- **C85 (partial)**: the only implementation of a scalar or window function can always be called by the
function's name. -/
theorem C85_sole_partial (c c' : Collection) (f : ExtFile) (s : ExtSet) (name : String)
    (i : Impl) (k : FuncKind) (sig : String) (opts : List (String × List String)) (args : List EArg)
    (ts : List Ty) (hc : c.Reachable) (hn : f.PlainNames) (h : c.load (some f) = (c', .ok ()))
    (hk : k ≠ .aggregate) (hi : f.implsNamed name = [(k, i)])
    (hs : signatureKey i.args = .ok sig) (hr : s.Room) (ha : ∀ a ∈ args, a.IsValue)
    (ht : List.Forall₂ EArg.HasType args ts) (hacc : i.Accepts ts) :
    BuildsCall c' k s ⟨f.urn, name⟩ opts args (name ++ ":" ++ sig) := by
  obtain ⟨v, hv, hpr⟩ := C26_found_partial c c' f hc hn h name k i hk hi
  refine builds_presented opts hr ha ht ?_ ?_ hpr hacc
  · simp only [findVariant, hv]
  · rw [Variant.compoundName, hpr.2.2.1, hpr.2.1, hs]
    rfl

/-- **C85 (partial)**: an implementation without variadic arguments can be called by the function's name
with arguments whose types its parameters name, if no declaration of the name (aggregate functions
aside) has exactly one implementation. -/
theorem C85_overloaded_partial (c c' : Collection) (f : ExtFile) (s : ExtSet) (p : FuncKind × FuncDecl)
    (i : Impl) (k : FuncKind) (sig : String) (opts : List (String × List String)) (args : List EArg)
    (ts : List Ty) (hc : c.Reachable) (hn : f.PlainNames) (h : c.load (some f) = (c', .ok ()))
    (hp : p ∈ f.declared) (hi : i ∈ p.2.impls) (hk : p.1.ServesAs k) (ho : f.OnlyOne k p.2.name i)
    (hs : signatureKey i.args = .ok sig) (hr : s.Room) (ha : ∀ a ∈ args, a.IsValue)
    (ht : List.Forall₂ EArg.HasType args ts) (hacc : i.Accepts ts)
    (hsole : ((f.soleDecls p.2.name).filter fun p => p.1 ≠ .aggregate) = [])
    (hvar : i.variadic = none) (hnames : List.Forall₂ (FuncParam.Names s) i.args ts) :
    BuildsCall c' k s ⟨f.urn, p.2.name⟩ opts args (p.2.name ++ ":" ++ sig) := by
  obtain ⟨v, hv, hpr, hcn⟩ := found_only hc hn h hp hi hk ho hs
  refine builds_presented opts hr ha ht ?_ hcn hpr hacc
  have hnone := C26_ambiguous_partial c c' f hc h p.2.name (hn p hp) (by rw [hsole]; rfl) k
  obtain ⟨ret, anchor, out, hret, he⟩ := hacc
  obtain ⟨after, hm⟩ := evaluate_matches he
  rw [hvar] at hm
  obtain ⟨sigs, e1, e2⟩ := match_signature hm hnames
  rw [signatureKey, e2] at hs
  cases hs
  simp only [findVariant, hnone, hn p hp, if_false, e1, Res.ok_bind]
  rw [← String.append_assoc, hv]

/-- an implementation with the parameters given -/
def implOf (ps : List FTy) (v : Option Variadic) : Impl :=
  ⟨ps.map .value, some (.prim .i64 1 0), none, "", "", .mirror, v, {}⟩

/-- a file with one scalar function `f` with two implementations -/
def twoFile (i j : Impl) : ExtFile := fileOf [⟨"f", "", [i, j], false, false⟩] [] []

theorem new_room : ExtSet.new.Room :=
  ⟨(freshInv_new []).compact, fun k => by cases k <;> decide, by decide⟩

theorem two_plain (i j : Impl) : (twoFile i j).PlainNames :=
  plain_fileOf (by simp)

theorem two_only {i j : Impl} (h : signatureKey j.args ≠ signatureKey i.args) :
    (twoFile i j).OnlyOne .scalar "f" i := by
  intro q hq _ _ x hx hs
  simp only [twoFile, fileOf, ExtFile.declared, List.map_cons, List.map_nil, List.append_nil,
    List.mem_singleton] at hq
  subst hq
  simp only [List.mem_cons, List.not_mem_nil, or_false] at hx
  rcases hx with rfl | rfl
  · rfl
  · exact absurd hs h

/-- The hypotheses of `C85_overloaded_partial` are met: `f:i32` and `f:str_i32`, the latter called by
the name `f` with a string and an `i32`. -/
example : BuildsCall (Collection.zero.load (some (twoFile (implOf [.prim .string 1 0, .prim .i32 1 0] none)
      (implOf [.prim .i32 1 0] none)))).1 .scalar .new ⟨"extension:acme:f", "f"⟩ []
    [exprOf .string, exprOf .i32] ("f" ++ ":" ++ "str_i32") :=
  C85_overloaded_partial .zero _ (twoFile (implOf [.prim .string 1 0, .prim .i32 1 0] none)
      (implOf [.prim .i32 1 0] none)) .new
    (.scalar, ⟨"f", "", [implOf [.prim .string 1 0, .prim .i32 1 0] none, implOf [.prim .i32 1 0] none],
      false, false⟩) (implOf [.prim .string 1 0, .prim .i32 1 0] none) .scalar "str_i32" [] _
    [.prim .string 1 0, .prim .i32 1 0] .zero (two_plain _ _) rfl (by simp [twoFile, fileOf, ExtFile.declared])
    (by simp) (.inl rfl) (two_only (by decide +kernel)) (by decide +kernel) new_room
    (by simp only [exprOf, List.mem_cons, List.not_mem_nil, or_false]; rintro a (rfl | rfl) <;> exact .expr)
    (.cons (.expr rfl) (.cons (.expr rfl) .nil))
    ⟨.prim .i64 1 0, fun _ => 0, _, rfl, rfl⟩ rfl rfl (.cons trivial (.cons trivial .nil))

/-- C85 as stated is false: of two implementations `f:any` and `f:i32_i32` the first cannot be called by
the name `f`. -/
theorem C85_negation_any : ¬ C85_statement := by
  intro h
  obtain ⟨a, s', he, _⟩ := h .zero _ (twoFile (implOf [.any 1 "any1"] none)
      (implOf [.prim .i32 1 0, .prim .i32 1 0] none)) .new
    (.scalar, ⟨"f", "", [implOf [.any 1 "any1"] none, implOf [.prim .i32 1 0, .prim .i32 1 0] none],
      false, false⟩) (implOf [.any 1 "any1"] none) .scalar "any" [] [exprOf .i64]
    [.prim .i64 1 0] .zero (two_plain _ _) rfl (by simp [twoFile, fileOf, ExtFile.declared])
    (by simp) (.inl rfl) (two_only (by decide +kernel)) (by decide +kernel) new_room
    (by simp only [exprOf, List.mem_cons, List.not_mem_nil, or_false]; rintro a rfl; exact .expr)
    (.cons (.expr rfl) .nil) ⟨.prim .i64 1 0, fun _ => 0, _, rfl, rfl⟩
  cases he

/-- C85 as stated is false: `f:str`, which takes any number of strings, cannot be called by the name `f`
with two strings when there is another implementation. -/
theorem C85_negation_variadic : ¬ C85_statement := by
  intro h
  obtain ⟨a, s', he, _⟩ := h .zero _ (twoFile (implOf [.prim .string 1 0] (some ⟨1, 0, false⟩))
      (implOf [.prim .i32 1 0] none)) .new
    (.scalar, ⟨"f", "", [implOf [.prim .string 1 0] (some ⟨1, 0, false⟩), implOf [.prim .i32 1 0] none],
      false, false⟩) (implOf [.prim .string 1 0] (some ⟨1, 0, false⟩)) .scalar "str" []
    [exprOf .string, exprOf .string]
    [.prim .string 1 0, .prim .string 1 0] .zero (two_plain _ _) rfl (by simp [twoFile, fileOf, ExtFile.declared])
    (by simp) (.inl rfl) (two_only (by decide +kernel)) (by decide +kernel) new_room
    (by simp only [exprOf, List.mem_cons, List.not_mem_nil, or_false]; rintro a (rfl | rfl) <;> exact .expr)
    (.cons (.expr rfl) (.cons (.expr rfl) .nil)) ⟨.prim .i64 1 0, fun _ => 0, _, rfl, rfl⟩
  cases he

/-- C85 as stated is false: with `f:i32` in one declaration and `f:i64`, `f:fp32` in another, the name `f`
stands for `f:i32` alone, and a call with an `i64` is refused. -/
theorem C85_negation_mixed : ¬ C85_statement := by
  intro h
  obtain ⟨a, s', he, _⟩ := h .zero _ (fileOf [declOf "f" [.i32], declOf "f" [.i64, .fp32]] [] []) .new
    (.scalar, declOf "f" [.i64, .fp32]) ⟨[.value (.prim .i64 1 0)], some (.prim .i64 1 0), none, "", "",
      .mirror, none, {}⟩ .scalar "i64" [] [exprOf .i64] [.prim .i64 1 0] .zero
    (plain_fileOf (by simp [declOf])) rfl (by simp [fileOf, ExtFile.declared])
    (by simp [declOf]) (.inl rfl) (by
      intro q hq _ _ x hx hs
      simp only [fileOf, ExtFile.declared, List.map_cons, List.map_nil, List.append_nil, List.mem_cons,
        List.not_mem_nil, or_false] at hq
      rcases hq with rfl | rfl <;>
        simp only [declOf, List.map_cons, List.map_nil, List.mem_cons, List.not_mem_nil, or_false] at hx
      · subst hx; exact absurd hs (by decide +kernel)
      · rcases hx with rfl | rfl
        · rfl
        · exact absurd hs (by decide +kernel)) (by decide +kernel) new_room
    (by simp only [exprOf, List.mem_cons, List.not_mem_nil, or_false]; rintro a rfl; exact .expr)
    (.cons (.expr rfl) .nil) ⟨.prim .i64 1 0, fun _ => 0, _, rfl, rfl⟩
  cases he

/-! ## C86: functions that cannot be decomposed are called for the whole computation -/

/-- C86, as stated: window and aggregate calls are built of functions that are not decomposable only with
the phase `InitialToResult`. -/
def C86_statement : Prop :=
  (∀ (c : Collection) (s s' : ExtSet) (id : ExtId) (opts : List (String × List String))
    (invocation phase : Int32) (args : List EArg) (a : FnAttrs) (w : WinAttrs) (v : Variant),
    c.Reachable → s.Tidy →
    newWindowFunc c s id opts invocation phase args = .ok (.window a w args [] [], s') →
    s'.lookupFunc c .window a.funcRef = some v → v.impl.decomposable = "NONE" →
    w.phase = phaseInitialToResult) ∧
  (∀ (c : Collection) (s s' : ExtSet) (id : ExtId) (opts : List (String × List String))
    (invocation phase : Int32) (sorts : List ESort) (args : List EArg) (f : AggFn) (v : Variant),
    c.Reachable → s.Tidy →
    newAggregateFunc c s id opts invocation phase sorts args = .ok (f, s') →
    s'.lookupFunc c .aggregate f.a.funcRef = some v → v.impl.decomposable = "NONE" →
    f.phase = phaseInitialToResult)

/-- **C86 (partial)**: the first half, for window functions: the function that the call's reference stands
for in the set afterwards is decomposable, or the phase is `InitialToResult`. -/
theorem C86_window_partial (c : Collection) (s s' : ExtSet) (id : ExtId)
    (opts : List (String × List String)) (invocation phase : Int32) (args : List EArg) (a : FnAttrs)
    (w : WinAttrs) (v : Variant) (hc : c.Reachable) (hs : s.Tidy)
    (h : newWindowFunc c s id opts invocation phase args = .ok (.window a w args [] [], s'))
    (hv : s'.lookupFunc c .window a.funcRef = some v) (hd : v.impl.decomposable = "NONE") :
    w.phase = phaseInitialToResult := by
  simp only [newWindowFunc, Res.bind_eq_ok] at h
  obtain ⟨⟨u, out, s1⟩, h1, h⟩ := h
  simp only at h
  split at h
  · cases h
  rename_i hph
  simp only [Res.bind_eq_ok] at h
  obtain ⟨⟨a', s2⟩, h2, e⟩ := h
  cases e
  have hu := refers_of (reachable_sorted hc) hs h1 h2
  rw [hu] at hv
  cases hv
  simpa [hd] using hph

/-- The hypotheses are met: the window function `rank` is not decomposable. -/
example : ∃ a w s' v, newWindowFunc (Collection.zero.load (some sampleFile)).1 .new
      ⟨"extension:acme:geo", "rank"⟩ [] 1 3 [] = .ok (.window a w [] [] [], s') ∧
    s'.lookupFunc (Collection.zero.load (some sampleFile)).1 .window a.funcRef = some v ∧
    v.impl.decomposable = "NONE" := ⟨_, _, _, _, rfl, rfl, rfl⟩

/-- ... and with another phase the call is refused. -/
example : newWindowFunc (Collection.zero.load (some sampleFile)).1 .new
    ⟨"extension:acme:geo", "rank"⟩ [] 1 1 [] = .err := rfl

/-- C86 as stated is false: a call of the aggregate function `total`, not decomposable, is built with the
phase `InitialToIntermediate`. -/
theorem C86_negation : ¬ C86_statement := by
  intro h
  obtain ⟨f, s', v, h1, h2, h3, h4⟩ : ∃ f s' v,
      newAggregateFunc (Collection.zero.load (some sampleFile)).1 .new
        ⟨"extension:acme:geo", "total:i32"⟩ [] 1 1 [] [exprOf .i32] = .ok (f, s') ∧
      s'.lookupFunc (Collection.zero.load (some sampleFile)).1 .aggregate f.a.funcRef = some v ∧
      v.impl.decomposable = "NONE" ∧ f.phase = 1 := ⟨_, _, _, rfl, rfl, rfl, rfl⟩
  have := h.2 _ _ _ _ _ _ _ _ _ _ _ (.load _ _ .zero) new_tidy h1 h2 h3
  rw [h4] at this
  exact absurd this (by decide)

/-! ## C87: calls of custom functions -/

/-- The call is a call of the variant given, whether registered or not: it answers with its name, its
reference stands for its id, and type and options are those given. -/
def CallsCustom (s : ExtSet) (v : Variant) (out : Ty) (opts : List (String × List String)) (a : FnAttrs) :
    Prop :=
  ∃ n, v.compoundName = .ok n ∧ a.compoundName = .ok n ∧ s.decode .func a.funcRef = some ⟨v.urn, n⟩ ∧
    a.outputType = out ∧ a.options = opts

/-- C87, as stated: the constructors of custom calls return an error exactly when there is no output
type; otherwise the call is one of the variant given. -/
def C87_statement : Prop :=
  ∀ (s s' : ExtSet) (v : Variant) (out : Option Ty) (opts : List (String × List String))
    (invocation phase : Int32) (sorts : List ESort) (args : List EArg), s.Tidy →
    (∀ e, newCustomScalarFunc s v out opts args = .ok (e, s') →
      ∃ t a, out = some t ∧ e = .scalar a args ∧ CallsCustom s' v t opts a) ∧
    (∀ e, newCustomWindowFunc s v out opts invocation phase args = .ok (e, s') →
      ∃ t a w, out = some t ∧ e = .window a w args [] [] ∧ w.phase = phase ∧
        w.invocation = invocation ∧ CallsCustom s' v t opts a) ∧
    (∀ f, newCustomAggregateFunc s v out opts invocation phase sorts args = .ok (f, s') →
      ∃ t, out = some t ∧ f.args = args ∧ f.sorts = sorts ∧ f.phase = phase ∧
        f.invocation = invocation ∧ CallsCustom s' v t opts f.a)

theorem custom_of {s s' : ExtSet} {v : Variant} {out : Ty} {opts : List (String × List String)}
    {a : FnAttrs} (ht : s.Tidy) (h : callOf v s opts out = .ok (a, s')) : CallsCustom s' v out opts a := by
  simp only [callOf, Variant.id, Res.bind_eq_ok] at h
  obtain ⟨id, ⟨n, hn, e⟩, r, hr, e'⟩ := h
  cases e
  cases e'
  obtain ⟨g, _⟩ := getAnchor_refers (fun a id h => (ht.1 _ _ _).2 h) hr
  refine ⟨n, hn, ?_, g, rfl, rfl⟩
  rw [FnAttrs.compoundName, if_neg]
  simp only
  obtain ⟨sig, rfl⟩ := compound_prefix hn
  intro e
  have := congrArg String.toList e
  simp [String.toList_append] at this

/-- **C87 (partial)** for scalar functions. -/
theorem C87_scalar_partial (s s' : ExtSet) (v : Variant) (out : Option Ty)
    (opts : List (String × List String)) (args : List EArg) (hs : s.Tidy) (e : Expr)
    (h : newCustomScalarFunc s v out opts args = .ok (e, s')) :
    ∃ t a, out = some t ∧ e = .scalar a args ∧ CallsCustom s' v t opts a := by
  cases out with
  | none => cases h
  | some t =>
    simp only [newCustomScalarFunc, Res.bind_eq_ok] at h
    obtain ⟨⟨a, s2⟩, h, e⟩ := h
    cases e
    exact ⟨t, a, rfl, rfl, custom_of hs h⟩

/-- **C87 (partial)** for window functions. -/
theorem C87_window_partial (s s' : ExtSet) (v : Variant) (out : Option Ty)
    (opts : List (String × List String)) (invocation phase : Int32) (args : List EArg) (hs : s.Tidy)
    (e : Expr) (h : newCustomWindowFunc s v out opts invocation phase args = .ok (e, s')) :
    ∃ t a w, out = some t ∧ e = .window a w args [] [] ∧ w.phase = phase ∧ w.invocation = invocation ∧
      CallsCustom s' v t opts a := by
  cases out with
  | none => cases h
  | some t =>
    simp only [newCustomWindowFunc, Res.bind_eq_ok] at h
    obtain ⟨⟨a, s2⟩, h, e⟩ := h
    cases e
    exact ⟨t, a, _, rfl, rfl, rfl, rfl, custom_of hs h⟩

/-- **C87 (partial)** for aggregate functions: the call has the arguments, sort fields, phase and
invocation given, and its reference, type and options are right. What is missing is the name: asking for
it panics, see `C87_negation`. -/
theorem C87_aggregate_partial (s s' : ExtSet) (v : Variant) (out : Option Ty)
    (opts : List (String × List String)) (invocation phase : Int32) (sorts : List ESort)
    (args : List EArg) (hs : s.Tidy) (f : AggFn)
    (h : newCustomAggregateFunc s v out opts invocation phase sorts args = .ok (f, s')) :
    ∃ t n, out = some t ∧ f.args = args ∧ f.sorts = sorts ∧ f.phase = phase ∧
      f.invocation = invocation ∧ v.compoundName = .ok n ∧
      s'.decode .func f.a.funcRef = some ⟨v.urn, n⟩ ∧ f.a.outputType = t ∧ f.a.options = opts ∧
      f.a.compoundName = .panic := by
  cases out with
  | none => cases h
  | some t =>
    simp only [newCustomAggregateFunc, Res.bind_eq_ok] at h
    obtain ⟨⟨a, s2⟩, h, e⟩ := h
    cases e
    obtain ⟨n, hn, _, hd, ht, ho⟩ := custom_of hs h
    exact ⟨t, n, rfl, rfl, rfl, rfl, rfl, hn, hd, ht, ho, rfl⟩

/-- The hypotheses are met: phase 3 and invocation 1 stay apart. -/
example : ∃ f s', newCustomAggregateFunc .new ⟨"g", "", "extension:acme:g", implOf [.prim .i32 1 0] none⟩
    (some (.prim .i64 1 0)) [] 1 3 [] [exprOf .i32] = .ok (f, s') ∧ f.phase = 3 ∧ f.invocation = 1 ∧
    f.a.funcRef = 1 :=
  ⟨_, _, rfl, rfl, rfl, rfl⟩

/-- **C87 (partial)**: with an output type, a custom call is built, for every variant that
has a compound name, registered or not. -/
theorem C87_total_partial (s : ExtSet) (v : Variant) (n : String) (t : Ty)
    (opts : List (String × List String)) (invocation phase : Int32) (sorts : List ESort)
    (args : List EArg) (hr : s.Room) (hn : v.compoundName = .ok n) :
    (∃ a s', newCustomScalarFunc s v (some t) opts args = .ok (.scalar a args, s')) ∧
      (∃ a w s', newCustomWindowFunc s v (some t) opts invocation phase args =
        .ok (.window a w args [] [], s')) ∧
      ∃ f s', newCustomAggregateFunc s v (some t) opts invocation phase sorts args = .ok (f, s') := by
  obtain ⟨a, s1, _, _, g, _⟩ := getAnchor_two hr.1 hr.2.1 hr.2.2 ⟨.func, ⟨v.urn, n⟩⟩ ⟨.func, ⟨v.urn, n⟩⟩
  have : callOf v s opts t = .ok (⟨a, n, opts, t⟩, s1) := by
    simp only [callOf, Variant.id, hn, Res.ok_bind]
    rw [g]
    rfl
  refine ⟨⟨⟨a, n, opts, t⟩, s1, ?_⟩, ⟨⟨a, n, opts, t⟩, ⟨phase, invocation, 0, none, none⟩, s1, ?_⟩,
    ⟨⟨⟨a, "", opts, t⟩, phase, invocation, args, sorts⟩, s1, ?_⟩⟩
  · simp only [newCustomScalarFunc, this, Res.ok_bind]
  · simp only [newCustomWindowFunc, this, Res.ok_bind]
  · simp only [newCustomAggregateFunc, this, Res.ok_bind]

/-- **C87 (partial)**: without an output type, no custom call is built. -/
theorem C87_no_type_partial (s : ExtSet) (v : Variant) (opts : List (String × List String))
    (invocation phase : Int32) (sorts : List ESort) (args : List EArg) :
    newCustomScalarFunc s v none opts args = .err ∧
      newCustomWindowFunc s v none opts invocation phase args = .err ∧
      newCustomAggregateFunc s v none opts invocation phase sorts args = .err := ⟨rfl, rfl, rfl⟩

/-- a variant of an unregistered function -/
def customVariant : Variant := ⟨"g", "", "extension:acme:g", implOf [.prim .i32 1 0] none⟩

/-- The hypotheses are met. -/
example : ∃ a s', newCustomScalarFunc .new customVariant (some (.prim .i64 1 0)) [] [exprOf .i32] =
    .ok (.scalar a [exprOf .i32], s') ∧ a.compoundName = .ok "g:i32" ∧ a.funcRef = 1 :=
  ⟨_, _, rfl, rfl, rfl⟩

/-- C87 as stated is false: a custom aggregate call has no declaration; asking for its name panics. -/
theorem C87_negation : ¬ C87_statement := by
  intro h
  obtain ⟨f, s', hf, hp⟩ : ∃ f s', newCustomAggregateFunc .new customVariant (some (.prim .i64 1 0)) [] 1 3 []
    [exprOf .i32] = .ok (f, s') ∧ f.a.compoundName = .panic := ⟨_, _, rfl, rfl⟩
  obtain ⟨t, _, _, _, _, _, n, _, hn, _⟩ := (h _ s' _ _ _ 1 3 [] _ new_tidy).2.2 f hf
  rw [hp] at hn
  cases hn

end Verif
