import Verif.Lemmas.RereadRel
import Verif.Props.FuncName
import Verif.Props.Writable
/-!
# C111: what was read can be written, and is then read as the same
-/

namespace Verif

/-- C111, as stated: of every plan that is read there is a message from which the same plan is read. -/
def C111_statement : Prop :=
  ∀ (reg : RelReg) (m : PlanMsg RelMsg) (p : Plan), MadeUpStays reg.toReg reg.scalar →
    MadeUpStays reg.toReg reg.window → UnknownStays reg.toReg reg.aggregate →
    Plan.fromProto (Rel.fromProto reg) m = .ok p →
    ∃ m', p.toProto (Rel.toProto reg.toReg) = .ok m' ∧ Plan.fromProto (Rel.fromProto reg) m' = .ok p

/-- **C111, types (partial)**: without interval_compound types and unset parameters. -/
theorem C111_types_partial (m : PTy) (t : Ty) (hp : m.NoCompound) (h : typeFromProto m = .ok t) :
    ∃ m', typeToProto t = .ok m' ∧ typeFromProto m' = .ok t := ty_again m t hp h

/-- **C111, literals (partial)**: for messages that are plain. -/
theorem C111_literals_partial (m : PLit) (l : Lit) (hp : m.Plain) (h : literalFromProto m = .ok l) :
    ∃ m', literalToProto l = .ok m' ∧ literalFromProto m' = .ok l := lit_again m l hp h

/-- **C111, expressions (partial)**: for messages that are plain. -/
theorem C111_expressions_partial (reg : Reg) (base : Option (List Ty)) (m : ExprMsg) (e : Expr)
    (hsc : MadeUpStays reg reg.scalar) (hwi : MadeUpStays reg reg.window) (hp : m.Plain reg)
    (h : Expr.fromProto reg base m = .ok e) :
    ∃ m', e.toProto reg = .ok m' ∧ Expr.fromProto reg base m' = .ok e :=
  expr_again reg base hsc hwi m e hp h

/-- **C111, relations (partial)**: for messages that are plain. -/
theorem C111_relations_partial (reg : RelReg) (m : RelMsg) (r : Rel)
    (hsc : MadeUpStays reg.toReg reg.scalar) (hwi : MadeUpStays reg.toReg reg.window)
    (hag : UnknownStays reg.toReg reg.aggregate) (hp : m.Plain reg) (h : Rel.fromProto reg m = .ok r) :
    ∃ m', r.toProto reg.toReg = .ok m' ∧ Rel.fromProto reg m' = .ok r :=
  rel_again hsc hwi hag m r hp h

/-- **C111, plans (partial)**: for messages that are plain. -/
theorem C111_plans_partial (reg : RelReg) (m : PlanMsg RelMsg) (p : Plan)
    (hsc : MadeUpStays reg.toReg reg.scalar) (hwi : MadeUpStays reg.toReg reg.window)
    (hag : UnknownStays reg.toReg reg.aggregate) (hp : m.Plain reg)
    (h : Plan.fromProto (Rel.fromProto reg) m = .ok p) :
    ∃ m', p.toProto (Rel.toProto reg.toReg) = .ok m' ∧ Plan.fromProto (Rel.fromProto reg) m' = .ok p :=
  plan_again hsc hwi hag m p hp h

/-- **C111, one normal form (partial)**: passing a plan on changes its message at most the first time: what
is written of the plan read from the first message is written again of the plan read from that. -/
theorem C111_normal_partial (reg : RelReg) (m : PlanMsg RelMsg) (p : Plan)
    (hsc : MadeUpStays reg.toReg reg.scalar) (hwi : MadeUpStays reg.toReg reg.window)
    (hag : UnknownStays reg.toReg reg.aggregate) (hp : m.Plain reg)
    (h : Plan.fromProto (Rel.fromProto reg) m = .ok p) :
    ∃ m', p.toProto (Rel.toProto reg.toReg) = .ok m' ∧
      ∀ p', Plan.fromProto (Rel.fromProto reg) m' = .ok p' →
        p'.toProto (Rel.toProto reg.toReg) = .ok m' := by
  obtain ⟨m', h1, h2⟩ := C111_plans_partial reg m p hsc hwi hag hp h
  refine ⟨m', h1, fun p' h3 => ?_⟩
  rw [h2] at h3
  cases h3
  exact h1

/-- **C111, functions.** A registry over a plan's own functions meets the conditions on functions if the
plan's functions that no loaded extension declares have names that are kept (C90). -/
theorem C111_functions (rest : Reg) (c : Collection) (s : ExtSet) (hs : s.Tidy)
    (hn : ∀ ref id k, s.decode .func ref = some id → s.declarationOf c k ref = none → KeptName id.name) :
    MadeUpStays (Reg.ofSet rest c s) (Reg.ofSet rest c s).scalar ∧
      MadeUpStays (Reg.ofSet rest c s) (Reg.ofSet rest c s).window ∧
      UnknownStays (Reg.ofSet rest c s) (Reg.ofSet rest c s).aggregate := by
  have key : ∀ k ref id a d, s.decode .func ref = some id → s.declarationOf c k ref = none →
      (Reg.ofSet rest c s).custom id = .ok (a, d) → a = ref ∧ d = id.name := by
    intro k ref id a d h1 h2 h3
    have h4 := C90_unchanged_partial s ref id hs h1 (hn ref id k h1 h2)
    simp only [Reg.ofSet, h4, Res.ok_bind, Res.ok.injEq, Prod.mk.injEq] at h3
    exact ⟨h3.1.symm, h3.2.symm⟩
  refine ⟨?_, ?_, ?_⟩
  · intro ref id a d h1 h2 h3
    obtain ⟨rfl, rfl⟩ := key .scalar ref id a d h1 h2 h3
    exact ⟨id, h1, .inr ⟨h2, h3⟩⟩
  · intro ref id a d h1 h2 h3
    obtain ⟨rfl, rfl⟩ := key .window ref id a d h1 h2 h3
    exact ⟨id, h1, .inr ⟨h2, h3⟩⟩
  · intro ref id a d h1 h2 h3
    obtain ⟨rfl, rfl⟩ := key .aggregate ref id a d h1 h2 h3
    exact ⟨id, _, h1, h2, h3⟩

/-! ## What goes wrong -/

/-- **C111, negation: interval_compound types.** A type that is, or has inside a list, an interval_compound
type is read; writing what was read panics. -/
theorem C111_negation_type (n n' : Nullability) (v v' : UInt32) (p : Int32) (hp : ValidPrecision p) :
    ∃ t, typeFromProto (.list n v (.intervalCompound n' v' p)) = .ok t ∧ typeToProto t = .panic := by
  refine ⟨.list n v (.intervalCompound true n' v' p), ?_, ?_⟩
  · simp [typeFromProto, precisionOrPanic_valid hp]
  · simp [typeToProto]

/-- **C111, negation: literals that are not there.** A list with a time before zero is read as a list with a
nil literal; writing that panics. -/
theorem C111_negation_literal (b : Bool) (p : Int32) :
    ∃ l, literalFromProto (.mk b 0 (.list [.mk false 0 (.i64 1), .mk b 0 (.precisionTime p (-1))])) = .ok l ∧
      literalToProto l = .panic := by
  have h : literalKindFromProto (getNullability b) 0 (.precisionTime p (-1)) = .ok .nil := by
    simp only [literalKindFromProto, precisionFromProto]
    split <;> rfl
  refine ⟨.list [.prim (.int64 1) (.prim .i64 (getNullability false) 0), .nil]
    (.list (getNullability b) 0 (.prim .i64 (getNullability false) 0)), ?_, ?_⟩
  · simp only [literalFromProto, literalKindFromProto, literalsFromProto] at h ⊢
    simp only [Res.ok.injEq] at h
    simp only [h, Res.ok_bind]
    rfl
  · simp [literalToProto, literalsToProto, primLitKind]

/-- **C111, negation: compound intervals.** The precision of a compound interval of no days, seconds and
fractions is read but not written. -/
theorem C111_negation_compound (b : Bool) (y mo p : Int32) (hp : ValidPrecision p) (h0 : p ≠ 0) :
    ∃ l m', literalFromProto (.mk b 0 (.intervalCompound (some (y, mo)) (some ⟨0, 0, .precision p, 0⟩))) = .ok l ∧
      literalToProto l = .ok m' ∧ literalFromProto m' ≠ .ok l := by
  refine ⟨.intervalCompound y mo 0 0 0 p (getNullability b), _, ?_, rfl, ?_⟩
  · simp [literalFromProto, literalKindFromProto, intervalCompoundFromProto, compoundDayPart, precision_ok hp]
  · intro h
    have hc : compoundLitKind y mo 0 0 0 p = .intervalCompound
        (if y ≠ 0 ∨ mo ≠ 0 then some (y, mo) else none) none := by simp [compoundLitKind]
    rw [hc] at h
    simp only [litHeader, literalFromProto, literalKindFromProto, intervalCompoundFromProto,
      Res.ok.injEq, Lit.intervalCompound.injEq] at h
    exact h0 h.2.2.2.2.2.1.symm

/-- **C111, negation: output modes.** The output mode of a write is read but not written. -/
theorem C111_negation_mode (reg : RelReg) (c : Option CommonMsg) (k : WriteTypeMsg)
    (s : Option NamedStructMsg) (op : Int32) (i : RelMsg) (o : OutputMode) (r : Rel) (m' : RelMsg) (r' : Rel)
    (ho : o ≠ .unspecified) (h : Rel.fromProto reg (.write c k s op i o) = .ok r)
    (hw : r.toProto reg.toReg = .ok m') (hr : Rel.fromProto reg m' = .ok r') : r' ≠ r := by
  simp only [Rel.fromProto, Res.bind_eq_ok] at h
  obtain ⟨i1, _, s1, _, c1, _, h⟩ := h
  split at h
  · have : ∃ ns a, r = .write c1 ns a s1 op i1 o := by
      split at h <;> first | (cases h; exact ⟨_, _, rfl⟩) | cases h
    obtain ⟨ns, a, rfl⟩ := this
    obtain ⟨⟨i2, s2, rfl⟩, _⟩ := C46_negation_mode reg _ _ _ _ _ _ _ _ _ hw hr
    intro e
    cases e
    exact ho rfl
  · cases h

/-! ## The hypotheses are met -/

/-- a registry with a declared function of each kind, and one that no extension declares -/
def exAgainReg : RelReg :=
  { exRelReg with
    custom := fun id => .ok (if id.name = "add" then 1 else if id.name = "rank" then 2
      else if id.name = "sum" then 4 else 3, id.name)
    decodeExt := fun _ => .ok none }

theorem exAgain_cases {ref : UInt32} {id : ExtId} (h : exAgainReg.decodeFunc ref = some id) :
    (ref = 4 ∧ id = ⟨"u", "sum"⟩) ∨ (ref = 1 ∧ id = ⟨"u", "add"⟩) ∨ (ref = 2 ∧ id = ⟨"u", "rank"⟩) ∨
      (ref = 3 ∧ id = ⟨"u", "mystery:i32"⟩) := by
  simp only [exAgainReg, exRelReg, exReg] at h
  repeat' split at h
  all_goals simp_all

theorem exAgain_scalar : MadeUpStays exAgainReg.toReg exAgainReg.scalar := by
  intro ref id a d h1 h2 h3
  rcases exAgain_cases h1 with ⟨rfl, rfl⟩ | ⟨rfl, rfl⟩ | ⟨rfl, rfl⟩ | ⟨rfl, rfl⟩
  all_goals simp [exAgainReg, exRelReg, exReg] at h1 h2 h3 ⊢
  all_goals (obtain ⟨rfl, rfl⟩ := h3; simp)

theorem exAgain_window : MadeUpStays exAgainReg.toReg exAgainReg.window := by
  intro ref id a d h1 h2 h3
  rcases exAgain_cases h1 with ⟨rfl, rfl⟩ | ⟨rfl, rfl⟩ | ⟨rfl, rfl⟩ | ⟨rfl, rfl⟩
  all_goals simp [exAgainReg, exRelReg, exReg] at h1 h2 h3 ⊢
  all_goals (obtain ⟨rfl, rfl⟩ := h3; simp)

theorem exAgain_aggregate : UnknownStays exAgainReg.toReg exAgainReg.aggregate := by
  intro ref id a d h1 h2 h3
  rcases exAgain_cases h1 with ⟨rfl, rfl⟩ | ⟨rfl, rfl⟩ | ⟨rfl, rfl⟩ | ⟨rfl, rfl⟩
  all_goals simp [exAgainReg, exRelReg, exReg] at h1 h2 h3 ⊢
  all_goals (obtain ⟨rfl, rfl⟩ := h3; simp)

/-- a scan with no common part, of (i64, string?) -/
def exAgainScan : RelMsg :=
  .read none (some ⟨["a", "b"], some (NullabilityRequired, 0,
    [.prim .i64 NullabilityRequired 0, .prim .string NullabilityNullable 0])⟩)
    .nil .nil none none (.named ["t"] none)

/-- column `i` -/
def exAgainCol (i : Int32) : RootMsg × RefMsg := (.rootReference, .direct (.structField i .nil))

/-- In deprecated and incomplete forms: a hash join with separate keys, grouped by a legacy expression, with
a measure and a call of an undeclared function with an interval in microseconds; a write without names. -/
def exAgainMsg : PlanMsg RelMsg :=
  ⟨[.rel (.project none
      (.aggregate (some ⟨none, none, .unset⟩)
        (.hashJoin (some ⟨none, none, .unset⟩) exAgainScan exAgainScan [] [some (exAgainCol 0)] [some (exAgainCol 0)] .nil 257 none)
        [] [⟨[.selection (exAgainCol 1).1 (exAgainCol 1).2], []⟩]
        [⟨some ⟨4, [], some (.prim .i64 NullabilityNullable 0), 3, 1,
          [.value (.selection (exAgainCol 0).1 (exAgainCol 0).2)], []⟩, .nil⟩] none)
      [.scalar 3 [] (some (.intervalDay NullabilityRequired 0 none))
        [.value (.lit (.mk false 0 (.intervalDayToSecond ⟨1, 2, .microseconds 3, 0⟩)))]] none),
    .rel (.write none .unset (some ⟨["x"], some (NullabilityRequired, 0, [.prim .i64 NullabilityRequired 0])⟩) 1
      (.fetch none exAgainScan (some 0) (some 5) none) .unspecified)],
   [(7, .mk true 0 (.precisionTime 6 5))], ["url"]⟩

theorem exAgainMsg_plain : exAgainMsg.Plain exAgainReg := by
  simp [exAgainMsg, exAgainScan, exAgainCol, PlanMsg.Plain, PlanRelMsg.Plain, RelMsg.Plain, SchemaPlain,
    ReadTypeMsg.Plain, ExprMsg.Plain, ExprMsg.PlainList, ArgMsg.PlainList, ArgMsg.Plain, SortMsg.PlainList,
    KeysPlain, KeyPlain, RootMsg.Plain, RefMsg.Plain, PSeg.KeysPlain, MeasureMsg.Plain, PLit.Plain,
    PLitKind.Plain, PTy.NoCompound, DaySecond.ModeOk, ValidPrecision]
  refine ⟨?_, ?_, ?_⟩ <;>
    (rintro x n v ts rfl h; cases h; simp [PTy.NoCompound])

/-- It is read, written and read as the same. -/
example : ∃ p m', Plan.fromProto (Rel.fromProto exAgainReg) exAgainMsg = .ok p ∧
    p.toProto (Rel.toProto exAgainReg.toReg) = .ok m' ∧
    Plan.fromProto (Rel.fromProto exAgainReg) m' = .ok p := by
  have h : (Plan.fromProto (Rel.fromProto exAgainReg) exAgainMsg).isOk = true := by decide +kernel
  cases hp : Plan.fromProto (Rel.fromProto exAgainReg) exAgainMsg with
  | ok p =>
    obtain ⟨m', h1, h2⟩ := C111_plans_partial exAgainReg exAgainMsg p exAgain_scalar exAgain_window
      exAgain_aggregate exAgainMsg_plain hp
    exact ⟨p, m', rfl, h1, h2⟩
  | err => rw [hp] at h; cases h
  | panic => rw [hp] at h; cases h

/-- A write whose output mode is lost: an insert that returns the records it inserted. -/
example : ∃ r m' r', Rel.fromProto exAgainReg (.write none (.named ["out"] none)
      (some ⟨["x"], some (NullabilityRequired, 0, [.prim .i64 NullabilityRequired 0])⟩) 1 exAgainScan
      .modifiedRecords) = .ok r ∧
    r.toProto exAgainReg.toReg = .ok m' ∧ Rel.fromProto exAgainReg m' = .ok r' ∧ r' ≠ r := by
  have hr : ∃ r, Rel.fromProto exAgainReg (.write none (.named ["out"] none)
      (some ⟨["x"], some (NullabilityRequired, 0, [.prim .i64 NullabilityRequired 0])⟩) 1 exAgainScan
      .modifiedRecords) = .ok r ∧ ∃ m', r.toProto exAgainReg.toReg = .ok m' ∧
        ∃ r', Rel.fromProto exAgainReg m' = .ok r' := by
    refine ⟨_, rfl, ?_⟩
    simp only [Rel.toProto, NamedStruct.toMsg, ReadKind.toMsg, Expr.optToProto, typeToProto, Res.mapL_cons,
      Res.mapL_nil, Res.ok_bind]
    exact ⟨_, rfl, _, rfl⟩
  obtain ⟨r, hr, m', hw, r', hr'⟩ := hr
  exact ⟨r, m', r', hr, hw, hr', C111_negation_mode exAgainReg _ _ _ _ _ _ _ _ _ (by simp) hr hw hr'⟩

/-- With a set that names a function which `oneCollection` does not have, the conditions are met. -/
example : ∃ (ref : UInt32) (s : ExtSet), s.Tidy ∧
    s.decode .func ref = some ⟨"extension:acme:f", "h:i32_i64"⟩ ∧
    MadeUpStays (Reg.ofSet exReg oneCollection s) (Reg.ofSet exReg oneCollection s).scalar := by
  obtain ⟨ref, s, _, h1, h2, _⟩ := freshInv_step (L := [⟨.func, ⟨"extension:acme:f", "h:i32_i64"⟩⟩]) (by simp)
    (freshInv_new _) .func ⟨"extension:acme:f", "h:i32_i64"⟩ (by simp)
  refine ⟨ref, s, h1.tidy, (h1.tidy.1 _ _ _).2 h2, (C111_functions exReg oneCollection s h1.tidy ?_).1⟩
  intro ref' id k h3 _
  have := h1.ids _ _ _ ((h1.tidy.1 _ _ _).1 h3)
  simp only [List.mem_singleton, AnchorReq.mk.injEq, true_and] at this
  subst this
  refine ⟨"h", ["i32", "i64"], by decide +kernel, ?_, by decide +kernel⟩
  intro p hp
  simp only [List.mem_cons, List.not_mem_nil, or_false] at hp
  rcases hp with rfl | rfl
  · exact .inl (by simp [keptNames])
  · exact .inl (by simp [keptNames])

/-- **C111, negation.** -/
theorem C111_negation : ¬ C111_statement := by
  intro h
  obtain ⟨t, h1, h2⟩ := C111_negation_type 1 1 0 0 6 (by simp [ValidPrecision])
  obtain ⟨m', h3, _⟩ := h exAgainReg ⟨[], [(1, .mk true 0 (.null (.list 1 0 (.intervalCompound 1 0 6))))], []⟩
    ⟨[], [⟨1, .null t⟩], []⟩ exAgain_scalar exAgain_window exAgain_aggregate
    (by simp [Plan.fromProto, Res.mapL_cons, Res.mapL_nil, literalFromProto, literalKindFromProto, h1])
  simp [Plan.toProto, Res.mapL_cons, Res.mapL_nil, literalToProto, h2] at h3

end Verif
