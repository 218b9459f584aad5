import Verif.Lemmas.NoPanicPlan
import Verif.Props.PlanProto
/-!
# Reading messages does not panic (C83)
-/

namespace Verif

/-- **C83 as intended**: whatever message they are given, the readers of expressions, relations and
plans return a value or an error; they never panic. -/
def C83_statement : Prop :=
  (∀ (reg : Reg) (base : Option (List Ty)) (m : ExprMsg), Expr.fromProto reg base m ≠ .panic) ∧
  (∀ (reg : RelReg) (m : RelMsg), Rel.fromProto reg m ≠ .panic) ∧
  ∀ (reg : RelReg) (m : PlanMsg RelMsg), Plan.fromProto (Rel.fromProto reg) m ≠ .panic

/-! ## Messages that do make the readers panic -/

/-- **C83, negation: precisions.** A cast (of anything that can be read) to a timestamp type whose
precision is not one of 0 to 9 makes the reader panic. -/
theorem C83_negation_precision (reg : Reg) (base : Option (List Ty)) (n : Nullability) (v : UInt32)
    (p : Int32) (hp : ¬ ValidPrecision p) (m : ExprMsg) (e : Expr) (he : Expr.fromProto reg base m = .ok e)
    (fail : Int32) :
    Expr.fromProto reg base (.cast (some (.precisionTimestamp n v p)) m fail) = .panic := by
  have : precisionOrPanic p = .panic := by
    unfold precisionOrPanic
    unfold ValidPrecision at hp
    simp only [protoToTimePrecision]
    rw [if_pos (by
      by_contra h
      rw [not_or] at h
      exact hp ⟨Int32.le_iff_toInt_le.1 (Int32.not_lt.1 h.1), Int32.le_iff_toInt_le.1 (Int32.not_lt.1 h.2)⟩)]
  rw [Expr.fromProto]
  simp only [typeFromProto, this, he]
  rfl

/-- **C83, negation: a missing input.** Relations without their input make the reader panic. -/
theorem C83_negation_input (reg : RelReg) (c : Option CommonMsg) (e : ExprMsg) (adv : Option Nat)
    (o n : Option Int64) (es : List ExprMsg) :
    Rel.fromProto reg (.filter c .nil e adv) = .panic ∧
    Rel.fromProto reg (.fetch c .nil o n adv) = .panic ∧
    Rel.fromProto reg (.project c .nil es adv) = .panic := by
  refine ⟨?_, ?_, ?_⟩ <;> rw [Rel.fromProto, Rel.fromProto] <;> rfl

/-- **C83, negation: a missing common part.** A cross join or sort of readable inputs without a common
part makes the reader panic, whereas a filter is read. -/
theorem C83_negation_common (reg : RelReg) (l r : RelMsg) (l' r' : Rel)
    (hl : Rel.fromProto reg l = .ok l') (hr : Rel.fromProto reg r = .ok r') (adv : Option Nat) :
    Rel.fromProto reg (.cross none l r adv) = .panic := by
  rw [Rel.fromProto, hl, Res.ok_bind, hr]; rfl

/-- **C83, negation: output mappings.** A mapping that refers to a column that is not there is
accepted when the relation is read, and makes the reader panic in the relation above it. -/
theorem C83_negation_mapping (reg : RelReg) (e : ExprMsg) (adv : Option Nat) :
    let scan : RelMsg := .read (some ⟨none, none, .emit (some [3])⟩)
      (some ⟨["a"], some (NullabilityRequired, 0, [.prim .i64 NullabilityRequired 0])⟩) .nil .nil none none
      (.named ["t"] none)
    (∃ r, Rel.fromProto reg scan = .ok r) ∧ Rel.fromProto reg (.filter none scan e adv) = .panic := by
  intro scan
  have h : Rel.fromProto reg scan = .ok (.read ⟨none, some [3], none⟩
      ⟨⟨["a"], NullabilityRequired, 0, [.prim .i64 NullabilityRequired 0]⟩, .nil, .nil, none, none⟩
      (.named ["t"] none)) := by
    rfl
  refine ⟨⟨_, h⟩, ?_⟩
  rw [Rel.fromProto, h]
  rfl

/-- **C83, negation: literals.** The empty list literal, a literal without a kind inside a list, and a
timestamp before the epoch inside a list make the reader of literals panic. -/
theorem C83_negation_literal (reg : Reg) (base : Option (List Ty)) :
    Expr.fromProto reg base (.lit (.mk false 0 (.list []))) = .panic ∧
    Expr.fromProto reg base
      (.lit (.mk false 0 (.list [.mk false 0 (.precisionTimestamp 6 (-1))]))) = .panic := by
  constructor <;> rw [Expr.fromProto] <;> rfl

/-- **C83, negation: measures.** An aggregate over the readable input `i`, with no groupings and a
measure without a function, makes the reader panic. -/
theorem C83_negation_measure (reg : RelReg) (c : Option CommonMsg) (i : RelMsg) (r : Rel) (ts : List Ty)
    (hi : Rel.fromProto reg i = .ok r) (ht : r.recordType = .ok ts) (e : ExprMsg) (adv : Option Nat) :
    Rel.fromProto reg (.aggregate c i [] [] [⟨none, e⟩] adv) = .panic := by
  rw [Rel.fromProto, hi, Res.ok_bind, ht, Res.ok_bind]; rfl

/-- **C83, negation: writes.** A write that does not say what it returns is read, but makes the reader
panic when it is the input of a filter. -/
theorem C83_negation_write (reg : RelReg) (i : RelMsg) (r : Rel) (hi : Rel.fromProto reg i = .ok r)
    (e : ExprMsg) (adv : Option Nat) :
    let w : RelMsg := .write none (.named ["t"] none) (some ⟨[], some (NullabilityRequired, 0, [])⟩) 1 i
      .unspecified
    (∃ x, Rel.fromProto reg w = .ok x) ∧ Rel.fromProto reg (.filter none w e adv) = .panic := by
  intro w
  have h : Rel.fromProto reg w = .ok (.write ⟨none, none, none⟩ ["t"] none
      ⟨[], NullabilityRequired, 0, []⟩ 1 r .unspecified) := by
    simp only [w, Rel.fromProto, hi, Res.ok_bind]; rfl
  refine ⟨⟨_, h⟩, ?_⟩
  rw [Rel.fromProto, h]
  rfl

theorem C83_negation : ¬ C83_statement := fun h =>
  h.2.1 exRelReg _ (C83_negation_input exRelReg none .nil none none none []).1

/-! ## What is safe to read -/

/-- **C83, expressions (partial).** A message in which everything that is there is complete
(`ExprMsg.Safe`) is read to an expression or refused with an error, given a row of plan types to
resolve field references in, or none. If moreover the message is of a kind whose type can be told
(`ExprMsg.Typed`), the expression read has a type. Missing: the messages the negations are about. -/
theorem C83_expr_partial (reg : Reg) (base : Option (List Ty))
    (hb : ∀ ts, base = some ts → ∀ t ∈ ts, t.PlanType) (m : ExprMsg) (h : m.Safe reg base.isSome) :
    Expr.fromProto reg base m ≠ .panic ∧
    ∀ e, Expr.fromProto reg base m = .ok e → m.Typed reg base.isSome →
      ∃ t, e.getType = .ok t ∧ t.PlanType := by
  have hb' : ∀ ts, base = some ts → Ty.PlanTypeList ts := fun ts hts => planTypeList_of_mem (hb ts hts)
  exact expr_safe reg base hb' m h

/-- **C83, relations (partial).** If no decoders for extension relations are registered, a message in
which everything that is there is complete and whose expressions refer to rows that can be told
(`RelMsg.Safe`) is read to a relation or refused with an error. If moreover the row type of the
relation itself can be told (`RelMsg.HasSchema`), `RecordType` of the relation read does not panic and
has as many columns as the message says. -/
theorem C83_rel_partial (reg : RelReg) (hd : reg.NoDecoders) (m : RelMsg) (h : m.Safe reg.toReg) :
    Rel.fromProto reg m ≠ .panic ∧
    ∀ r, Rel.fromProto reg m = .ok r → m.HasSchema reg.toReg →
      ∃ ts, r.recordType = .ok ts ∧ ts.length = m.width := by
  obtain ⟨h1, h2⟩ := rel_safe reg hd m h
  refine ⟨h1, fun r hr hs => ?_⟩
  obtain ⟨ts, h3, h4⟩ := h2 r hr hs
  exact ⟨ts, h3, h4.1⟩

/-- **C83, plans (partial).** A plan of such relations and complete parameter bindings is read to a plan
or refused with an error. -/
theorem C83_plan_partial (reg : RelReg) (hd : reg.NoDecoders) (m : PlanMsg RelMsg)
    (h : m.Safe reg.toReg) : Plan.fromProto (Rel.fromProto reg) m ≠ .panic :=
  plan_safe reg hd m h

/-! ## A plan that is safe to read -/

/-- a registry like `exRelReg` without decoders -/
def exPlainReg : RelReg := { exRelReg with decodeExt := fun _ => .ok none }

/-- a scan of (i64, string?) with a mapping that keeps the first column twice -/
def exScanMsg : RelMsg :=
  .read (some ⟨none, none, .emit (some [0, 0])⟩)
    (some ⟨["a", "b"], some (NullabilityRequired, 0,
      [.prim .i64 NullabilityRequired 0, .prim .string NullabilityNullable 0])⟩)
    .nil .nil none none (.named ["t"] none)

/-- column `i` -/
def exColMsg (i : Int32) : ExprMsg := .selection .rootReference (.direct (.structField i .nil))

/-- the scan, filtered and projected to its columns and `if #1 then [#0] else []` -/
def exProjMsg : RelMsg :=
  .project none (.filter none exScanMsg (exColMsg 1) none)
    [.ifThen [.mk (exColMsg 1) (.listE false 0 [exColMsg 0])] (.cast (some (.precisionTime 1 0 9)) (exColMsg 0) 1),
      exColMsg 5]
    none

/-- the projection at the root of a plan with a binding -/
def exPlanMsg : PlanMsg RelMsg :=
  ⟨[.root exProjMsg ["a", "b", "c", "d"]], [(1, .mk false 0 (.list [.mk false 0 (.i64 3)]))], []⟩

theorem exPlanMsg_safe : exPlanMsg.Safe exPlainReg.toReg := by
  have hs : RelMsg.HasSchema exPlainReg.toReg exScanMsg := by
    simp [exScanMsg, RelMsg.HasSchema, EmitInRange, commonMapping, schemaWidth]
  have hf : RelMsg.HasSchema exPlainReg.toReg (.filter none exScanMsg (exColMsg 1) none) := by
    simp [RelMsg.HasSchema, hs, EmitInRange, commonMapping]
  constructor
  · simp only [exPlanMsg, List.mem_singleton, forall_eq, PlanRelMsg.Safe]
    refine ⟨?_, .inr ?_⟩
    · simp only [exProjMsg, RelMsg.Safe]
      refine ⟨⟨?_, hs, ?_⟩, hf, ?_⟩
      · simp [exScanMsg, RelMsg.Safe, ReadTypeMsg.Safe, ExprMsg.Safe, NamedStructMsg.Complete,
          PTy.CompleteList, PTy.Complete]
      · simp [exColMsg, ExprMsg.Safe, RootMsg.Safe, RefMsg.Complete, PSeg.Complete, PSeg.KeysComplete]
      · simp [exColMsg, ExprMsg.Safe, ExprMsg.SafeList, PairMsg.SafeList, RootMsg.Safe, RefMsg.Complete,
          PSeg.Complete, PSeg.KeysComplete, PTy.Complete, ValidPrecision]
    · simp only [exProjMsg, RelMsg.HasSchema]
      refine ⟨⟨hs, by simp [EmitInRange, commonMapping]⟩, ?_, by simp [EmitInRange, commonMapping]⟩
      simp [exColMsg, ExprMsg.TypedList, ExprMsg.Typed, RootMsg.Typed, RefMsg.IsDirect]
  · simp [exPlanMsg, PLit.Complete, PLitKind.Complete, PLit.CompleteList]

example : Plan.fromProto (Rel.fromProto exPlainReg) exPlanMsg ≠ .panic :=
  C83_plan_partial _ (fun _ => rfl) _ exPlanMsg_safe

/-- the same with the column that is there: it is read, and has the four columns the message says -/
example : exProjMsg.width = 4 ∧ ∃ r ts, Rel.fromProto exPlainReg
    (.project none exScanMsg [exColMsg 1] none) = .ok r ∧ r.recordType = .ok ts ∧ ts.length = 3 :=
  ⟨rfl, _, _, rfl, rfl, rfl⟩

end Verif
