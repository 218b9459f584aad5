import Verif.Lemmas.RelProto
import Verif.Props.ExprProto
import Verif.Lemmas.Aggregate
/-!
# Properties of relations as messages (C45, C46, C47, C74, C75)
-/

namespace Verif

/-! ## C74, writing -/

theorem common_written (c : RelCommon) : CommonMsg.says (some c.toMsg) = c.says := by
  unfold RelCommon.toMsg CommonMsg.says RelCommon.says
  cases h : c.mapping <;> simp

theorem present_eq {e : Expr} {m : ExprMsg} (h : e.isNil = m.isNil) : m.present = e.present := by
  simp [Expr.present, ExprMsg.present, h]

theorem namedStruct_written (reg : Reg) {s : NamedStruct} {m : NamedStructMsg}
    (h : s.toMsg = .ok m) :
    NamedStructMsg.names? (some m) = s.names ∧
    NamedStructMsg.row (some m) = (s.nullability, s.variation) ∧
    (NamedStructMsg.types (some m)).length = s.types.length ∧
    List.Forall₂ (Part.Written reg) (s.types.map .type) ((NamedStructMsg.types (some m)).map .type) := by
  simp only [NamedStruct.toMsg, Res.bind_eq_ok] at h
  obtain ⟨ts, ht, h⟩ := h
  cases h
  exact ⟨rfl, rfl, mapL_length' _ _ ht, types_written reg _ _ ht⟩

theorem file_written (f : FileItem) : f.toMsg.says = f.says := by
  unfold FileItem.toMsg FileMsg.says FileItem.says
  by_cases h0 : f.pathType = 0
  · simp [h0]
  by_cases h1 : f.pathType = 1
  · simp [h1]
  by_cases h2 : f.pathType = 2
  · simp [h2]
  by_cases h3 : f.pathType = 3
  · simp [h3]
  simp [h0, h1, h2, h3]

theorem exprRows_written (reg : Reg) : ∀ (rows : List (List Expr)) (ms : List (List ExprMsg)),
    Res.mapL (Expr.toProtoList reg) rows = .ok ms →
    ms.map List.length = rows.map List.length ∧
      List.Forall₂ (Part.Written reg) (rows.flatten.map .expr) (ms.flatten.map .expr)
  | [], ms, h => by simp only [Res.mapL_nil] at h; cases h; exact ⟨rfl, .nil⟩
  | r :: rows, ms, h => by
      simp only [Res.mapL_cons, Res.bind_eq_ok] at h
      obtain ⟨a, ha, b, hb, h⟩ := h
      cases h
      obtain ⟨h1, h2⟩ := exprRows_written reg rows b hb
      obtain ⟨h3, h4⟩ := exprs_written reg r a ha
      refine ⟨by simp [h1, h3], ?_⟩
      simpa using f2_append h4 h2

theorem measures_written (reg : Reg) : ∀ (xs : List Measure) (ms : List MeasureMsg),
    Res.mapL (Measure.toMsg reg) xs = .ok ms →
    ms.map MeasureMsg.says = xs.map Measure.says ∧
    ms.map (fun m => !m.filter.isNil) = xs.map (fun m => !m.filter.isNil) ∧
      List.Forall₂ (Part.Written reg) (xs.flatMap Measure.items) (ms.flatMap MeasureMsg.items)
  | [], ms, h => by simp only [Res.mapL_nil] at h; cases h; exact ⟨rfl, rfl, .nil⟩
  | ⟨none, e⟩ :: xs, ms, h => by simp [Res.mapL_cons, Measure.toMsg] at h
  | ⟨some f, e⟩ :: xs, ms, h => by
      simp only [Res.mapL_cons, Measure.toMsg, AggFn.toMsg, Res.bind_eq_ok] at h
      obtain ⟨a, ⟨g, ⟨as, has, ss, hss, t, ht, hg⟩, e', he, ha⟩, b, hb, h⟩ := h
      cases hg; cases ha; cases h
      obtain ⟨h1, h2, h3⟩ := measures_written reg xs b hb
      obtain ⟨h4, h5⟩ := args_written reg _ _ has
      obtain ⟨h6, h7⟩ := sorts_written reg _ _ hss
      obtain ⟨h8, h9⟩ := opt_written reg _ _ he
      refine ⟨?_, by simp [h2, h8], ?_⟩
      · simp [h1, Measure.says, MeasureMsg.says, AggFn.says, AggMsg.says, h4, h6]
      · simp only [List.flatMap_cons]
        refine f2_append (f2_append ?_ h9) h3
        exact .cons ht (f2_append h5 h7)

theorem fieldRef_written (reg : Reg) {e : Expr} {m : FieldRefMsg} (h : fieldRefToMsg reg e = .ok m) :
    List.Forall₂ (Part.Written reg) [.expr e] (FieldRefMsg.items m) := by
  cases e <;> simp only [fieldRefToMsg] at h <;> first | (cases h; done) | skip
  rename_i root ref known
  simp only [Res.bind_eq_ok] at h
  obtain ⟨r, hr, t, ht, h⟩ := h
  cases h
  refine .cons ?_ .nil
  simp only [Part.Written, Expr.toProto, hr, ht, Res.ok_bind]

theorem keys_written (reg : Reg) : ∀ (ks : List JoinKey) (ms : List JoinKeyMsg),
    Res.mapL (JoinKey.toMsg reg) ks = .ok ms →
    ms.map (fun k => k.comparison.says) = ks.map (fun k => k.comparison.says) ∧
      List.Forall₂ (Part.Written reg) (ks.flatMap JoinKey.items) (ms.flatMap JoinKeyMsg.items)
  | [], ms, h => by simp only [Res.mapL_nil] at h; cases h; exact ⟨rfl, .nil⟩
  | k :: ks, ms, h => by
      simp only [Res.mapL_cons, JoinKey.toMsg, Res.bind_eq_ok] at h
      obtain ⟨a, ⟨l, hl, r, hr, c, hc, ha⟩, b, hb, h⟩ := h
      cases ha; cases h
      obtain ⟨h1, h2⟩ := keys_written reg ks b hb
      have h3 : c.says = k.comparison.says := by
        cases hk : k.comparison <;> simp only [hk, KeyComparison.toMsg] at hc <;> cases hc <;> rfl
      refine ⟨by simp [h1, h3], ?_⟩
      simp only [List.flatMap_cons]
      exact f2_append (f2_append (fieldRef_written reg hl) (fieldRef_written reg hr)) h2

theorem inputs_written (reg : Reg) : ∀ (is : List Rel) (ms : List RelMsg),
    Rel.toProtoList reg is = .ok ms →
    List.Forall₂ (fun i m => Rel.toProto reg i = .ok m) is ms
  | [], ms, h => by simp only [Rel.toProtoList] at h; cases h; exact .nil
  | i :: is, ms, h => by
      simp only [Rel.toProtoList, Res.bind_eq_ok] at h
      obtain ⟨a, ha, b, hb, h⟩ := h
      cases h
      exact .cons ha (inputs_written reg is b hb)

/-- **C74, writing.** The message written for any relation is of the same kind, states the same
hints, output mapping, names, flags, enum numbers, counts, groupings, functions and comparisons; its
types, expressions and masks are the relation's, written, in the same order, and so are its
inputs. -/
theorem C74_wire (reg : Reg) (r : Rel) (m : RelMsg) (h : r.toProto reg = .ok m) :
    m.says = r.says ∧
    List.Forall₂ (Part.Written reg) r.items m.items ∧
    List.Forall₂ (fun i n => Rel.toProto reg i = .ok n) r.getInputs m.inputs := by
  cases r with
  | read c b k =>
    simp only [Rel.toProto, Res.bind_eq_ok] at h
    obtain ⟨s, hs, f, hf, be, hbe, k', hk, h⟩ := h
    cases h
    obtain ⟨h1, h2, h3, h4⟩ := namedStruct_written reg hs
    obtain ⟨h5, h6⟩ := opt_written reg _ _ hf
    obtain ⟨h7, h8⟩ := opt_written reg _ _ hbe
    have hm : List.Forall₂ (Part.Written reg) (b.projection.toList.map .mask)
        ((b.projection.map reg.maskTo).toList.map .mask) := by
      cases b.projection with
      | none => exact .nil
      | some p => exact .cons rfl .nil
    have hp : (b.projection.map reg.maskTo).toList.length = b.projection.toList.length := by
      cases b.projection <;> rfl
    have hi := f2_append (f2_append (f2_append h4 h6) h8) hm
    cases k with
    | named ns a =>
      simp only [ReadKind.toMsg] at hk; cases hk
      refine ⟨?_, f2_append hi .nil, .nil⟩
      simp only [RelMsg.says, Rel.says, BaseRead.says, common_written, h1, h2, h3, hp,
        present_eq h5, present_eq h7]
    | virt rows =>
      simp only [ReadKind.toMsg, Res.bind_eq_ok] at hk
      obtain ⟨rs, hr, hk⟩ := hk
      cases hk
      obtain ⟨h9, h10⟩ := exprRows_written reg _ _ hr
      refine ⟨?_, f2_append hi h10, .nil⟩
      simp only [RelMsg.says, Rel.says, BaseRead.says, common_written, h1, h2, h3, hp,
        present_eq h5, present_eq h7, h9, List.map_nil, List.nil_append]
    | extTable d =>
      simp only [ReadKind.toMsg] at hk; cases hk
      refine ⟨?_, f2_append hi .nil, .nil⟩
      simp only [RelMsg.says, Rel.says, BaseRead.says, common_written, h1, h2, h3, hp,
        present_eq h5, present_eq h7]
    | iceberg u t i a =>
      simp only [ReadKind.toMsg] at hk; cases hk
      refine ⟨?_, f2_append hi .nil, .nil⟩
      simp only [RelMsg.says, Rel.says, BaseRead.says, common_written, h1, h2, h3, hp,
        present_eq h5, present_eq h7]
      by_cases hid : i = ""
      · by_cases ht : t = 0
        · simp [snapshotToMsg, hid, ht]
        · simp [snapshotToMsg, hid, ht]
      · simp [snapshotToMsg, hid]
    | files fs a =>
      simp only [ReadKind.toMsg] at hk; cases hk
      refine ⟨?_, f2_append hi .nil, .nil⟩
      have hf : (fs.map FileItem.toMsg).map FileMsg.says = fs.map FileItem.says := by
        simp [file_written]
      simp only [RelMsg.says, Rel.says, BaseRead.says, common_written, h1, h2, h3, hp,
        present_eq h5, present_eq h7, hf]
  | project c i es adv =>
    simp only [Rel.toProto, Res.bind_eq_ok] at h
    obtain ⟨es', he, i', hi, h⟩ := h
    cases h
    obtain ⟨h1, h2⟩ := exprs_written reg _ _ he
    exact ⟨by simp only [RelMsg.says, Rel.says, common_written, h1], h2, .cons hi .nil⟩
  | join c l r e p t adv =>
    simp only [Rel.toProto, Res.bind_eq_ok] at h
    obtain ⟨l', hl, r', hr, e', he, p', hp, h⟩ := h
    cases h
    obtain ⟨h1, h2⟩ := opt_written reg _ _ hp
    exact ⟨by simp only [RelMsg.says, Rel.says, common_written, present_eq h1], .cons he h2,
      .cons hl (.cons hr .nil)⟩
  | cross c l r adv =>
    simp only [Rel.toProto, Res.bind_eq_ok] at h
    obtain ⟨l', hl, r', hr, h⟩ := h
    cases h
    exact ⟨by simp only [RelMsg.says, Rel.says, common_written], .nil, .cons hl (.cons hr .nil)⟩
  | fetch c i o n adv =>
    simp only [Rel.toProto, Res.bind_eq_ok] at h
    obtain ⟨i', hi, h⟩ := h
    cases h
    exact ⟨by simp only [RelMsg.says, Rel.says, common_written, Option.getD_some], .nil,
      .cons hi .nil⟩
  | aggregate c i ms es refs adv =>
    simp only [Rel.toProto, Res.bind_eq_ok] at h
    obtain ⟨es', he, ms', hm, i', hi, h⟩ := h
    cases h
    obtain ⟨h1, h2⟩ := exprs_written reg _ _ he
    obtain ⟨h3, h4, h5⟩ := measures_written reg _ _ hm
    have hg : (refs.map fun r => (⟨[], r⟩ : GroupingMsg)).map GroupingMsg.refs = refs := by
      simp [Function.comp_def]
    exact ⟨by simp only [RelMsg.says, Rel.says, common_written, h1, h3, h4, hg], f2_append h2 h5,
      .cons hi .nil⟩
  | sort c i ss adv =>
    simp only [Rel.toProto, Res.bind_eq_ok] at h
    obtain ⟨ss', hs, i', hi, h⟩ := h
    cases h
    obtain ⟨h1, h2⟩ := sorts_written reg _ _ hs
    exact ⟨by simp only [RelMsg.says, Rel.says, common_written, h1], h2, .cons hi .nil⟩
  | filter c i e adv =>
    simp only [Rel.toProto, Res.bind_eq_ok] at h
    obtain ⟨i', hi, e', he, h⟩ := h
    cases h
    exact ⟨by simp only [RelMsg.says, Rel.says, common_written], .cons he .nil, .cons hi .nil⟩
  | set c is op adv =>
    simp only [Rel.toProto, Res.bind_eq_ok] at h
    obtain ⟨is', hi, h⟩ := h
    cases h
    exact ⟨by simp only [RelMsg.says, Rel.says, common_written], .nil, inputs_written reg _ _ hi⟩
  | extSingle c i d =>
    simp only [Rel.toProto, Res.bind_eq_ok] at h
    obtain ⟨i', hi, h⟩ := h
    cases h
    exact ⟨by simp only [RelMsg.says, Rel.says, common_written], .nil, .cons hi .nil⟩
  | extLeaf c d =>
    simp only [Rel.toProto] at h
    cases h
    exact ⟨by simp only [RelMsg.says, Rel.says, common_written], .nil, .nil⟩
  | extMulti c is d =>
    simp only [Rel.toProto, Res.bind_eq_ok] at h
    obtain ⟨is', hi, h⟩ := h
    cases h
    exact ⟨by simp only [RelMsg.says, Rel.says, common_written], .nil, inputs_written reg _ _ hi⟩
  | hashJoin c l r ks p t adv =>
    simp only [Rel.toProto, Res.bind_eq_ok] at h
    obtain ⟨l', hl, r', hr, ks', hk, lr, _, p', hp, h⟩ := h
    cases h
    obtain ⟨h1, h2⟩ := opt_written reg _ _ hp
    obtain ⟨h3, h4⟩ := keys_written reg _ _ hk
    exact ⟨by simp only [RelMsg.says, Rel.says, common_written, present_eq h1, h3,
      Int8.toInt_toInt32], f2_append h4 h2, .cons hl (.cons hr .nil)⟩
  | mergeJoin c l r ks p t adv =>
    simp only [Rel.toProto, Res.bind_eq_ok] at h
    obtain ⟨l', hl, r', hr, ks', hk, lr, _, p', hp, h⟩ := h
    cases h
    obtain ⟨h1, h2⟩ := opt_written reg _ _ hp
    obtain ⟨h3, h4⟩ := keys_written reg _ _ hk
    exact ⟨by simp only [RelMsg.says, Rel.says, common_written, present_eq h1, h3,
      Int8.toInt_toInt32], f2_append h4 h2, .cons hl (.cons hr .nil)⟩
  | write c ns adv s op i mode =>
    simp only [Rel.toProto, Res.bind_eq_ok] at h
    obtain ⟨s', hs, i', hi, h⟩ := h
    cases h
    obtain ⟨h1, h2, h3, h4⟩ := namedStruct_written reg hs
    exact ⟨by simp only [RelMsg.says, Rel.says, common_written, h1, h2, h3], h4, .cons hi .nil⟩

/-! ## C74, reading back -/

/-- **C74, in full.** Every relation that can be written is read back as it was. -/
def C74_statement : Prop := ∀ (reg : RelReg) (r : Rel) (m : RelMsg),
  r.toProto reg.toReg = .ok m → Rel.fromProto reg m = .ok r

/-- **C74, round trip.** A relation tree a message can carry is read back as exactly the tree that
was written. (Missing: the losses listed at `Rel.Sendable`; each is shown below or with C46 and
C72.) -/
theorem C74_roundtrip_partial (reg : RelReg) (r : Rel) (m : RelMsg) (hs : r.Sendable reg)
    (h : r.toProto reg.toReg = .ok m) : Rel.fromProto reg m = .ok r :=
  rel_exact reg r m hs h

/-- A registry with a scalar, a window and an aggregate function and one known extension relation,
whose output is its input with another column. -/
def exRelReg : RelReg :=
  { exReg with
    decodeFunc := fun r => if r = 4 then some ⟨"u", "sum"⟩ else exReg.decodeFunc r
    aggregate := fun r => if r = 4 then some "sum" else none
    decodeExt := fun d =>
      if d = some 5 then
        .ok (some (.custom (fun tss => tss.flatten ++ [.prim .boolean 1 0]) 5))
      else .ok none
    sh := ⟨fun _ _ => false, fun _ _ => false⟩ }

/-- column `i` of type `t` -/
def exCol (i : Int32) (t : Ty) : Expr :=
  .fieldRef .rootReference (.seg (.structField i .nil)) (some t)

theorem exCol_sendable {reg : Reg} {ts : List Ty} (i : Int32) (t : Ty) (k : Nat) (hk : i.toInt = k)
    (ht : ts[k]? = some t) : (exCol i t).Sendable reg (some ts) := by
  simp only [exCol, Expr.Sendable, ERoot.Sendable, Seg.KeysSendable, Recorded, true_and]
  refine ⟨by simp, t, ?_, rfl⟩
  exact .step _ _ _ _ _ (.field k i _ _ _ _ hk ht) (.done _)

theorem exLit7_sendable : exLit7.Sendable := by
  simp [exLit7, Lit.Sendable, Lit.Faithful, Lit.NoCompound, Ty.NoCompound, PVal.Fits, Stated]

/-- a scan with a filter, a projection mask and an output mapping; its rows are (i32, string) -/
def exScan : Rel :=
  .read ⟨some 3, some [1, 0], some 8⟩
    ⟨⟨["a", "b"], 2, 0, [.prim .string 1 0, .prim .i32 2 0]⟩, .lit exLit7, .nil, some 9, some 2⟩
    (.named ["db", "t"] (some 4))

/-- a sum over the scan grouped by its first column and over everything; rows (i32, i64) -/
def exSum : Rel :=
  .aggregate {} (.filter {} exScan (exCol 1 (.prim .string 1 0)) none)
    [⟨some ⟨⟨4, "sum", [("o", ["x"])], .prim .i64 1 0⟩, 3, 1, [.expr (exCol 0 (.prim .i32 2 0))],
      [.mk (exCol 1 (.prim .string 1 0)) (.direction 1)]⟩, .lit exLit7⟩]
    [exCol 0 (.prim .i32 2 0)] [[0], []] none

/-- the sum hash joined with the scan on an equality and a custom comparison; rows (i32, string) -/
def exHash : Rel :=
  .hashJoin ⟨none, some [0, 3], none⟩ exSum exScan
    [⟨exCol 0 (.prim .i32 2 0), exCol 0 (.prim .i32 2 0), .simple 1⟩,
     ⟨exCol 1 (.prim .i64 1 0), exCol 1 (.prim .string 1 0), .custom 5⟩] .nil 2 (some 6)

/-- A union of that join and the scan, sorted, limited, extended and projected; left joined with the
files of a folder and written to a table. -/
def exTree : Rel :=
  .write {} ["out"] none ⟨["x"], 2, 0, [.prim .i32 2 0]⟩ 1
    (.join {}
      (.project {} (.extSingle {} (.fetch {} (.sort {} (.set {} [exHash', exScan] 6 none)
        [.mk (exCol 1 (.prim .string 1 0)) (.direction 2)] none) 10 (-1) none)
        (.custom (fun tss => tss.flatten ++ [.prim .boolean 1 0]) 5))
        [exCol 2 (.prim .boolean 1 0)] (some 1))
      (.read {} ⟨⟨["f"], 2, 0, [.prim .date 2 0]⟩, .nil, .nil, none, none⟩
        (.files [⟨3, "/data", 0, 5, 10, some .orc⟩] none))
      (exCol 4 (.prim .date 2 0)) (.lit exLit7) .left none) .unspecified
where
  /-- the join, projected down to the columns of the scan -/
  exHash' : Rel := .project ⟨none, some [2, 3], none⟩ exHash
    [exCol 0 (.prim .i32 2 0), exCol 1 (.prim .string 1 0)] none

theorem exScan_type : exScan.recordType = .ok [.prim .i32 2 0, .prim .string 1 0] := by
  simp only [exScan, Rel.recordType, Rel.directOutputSchema, Rel.common]; rfl

theorem exScan_sendable : exScan.Sendable exRelReg := by
  simp only [exScan, Rel.Sendable, ReadKind.Sendable]
  refine ⟨?_, .inr ?_, .inl rfl, ?_, trivial⟩
  · simp [Ty.Sendable, Ty.PrecisionsOk, Ty.NoCompound]
  · simpa only [Expr.Sendable] using exLit7_sendable
  · intro p _; rfl

theorem exFilter_type : (Rel.filter {} exScan (exCol 1 (.prim .string 1 0)) none).recordType =
    .ok [.prim .i32 2 0, .prim .string 1 0] := by
  have h := exScan_type
  simp only [Rel.recordType] at h
  simp only [Rel.recordType, Rel.directOutputSchema, h]
  rfl

theorem exSum_type : exSum.recordType =
    .ok [.prim .i32 2 0, .prim .i64 1 0] := by
  simp only [exSum, Rel.recordType, Rel.directOutputSchema]
  rfl

theorem exSum_sendable : exSum.Sendable exRelReg := by
  simp only [exSum, Rel.Sendable]
  refine ⟨⟨exScan_sendable, _, exScan_type, exCol_sendable 1 _ 1 rfl rfl⟩, by simp, _,
    exFilter_type, ?_, ?_⟩
  · simp only [Expr.SendableList, and_true]
    exact exCol_sendable 0 _ 0 rfl rfl
  · intro m hm
    simp only [List.mem_singleton] at hm
    subst hm
    refine ⟨⟨_, rfl, ⟨⟨"u", "sum"⟩, rfl, .inl rfl⟩, ?_, ?_, ?_⟩, .inr ?_⟩
    · simp [Ty.Sendable, Ty.PrecisionsOk, Ty.NoCompound]
    · simp only [EArg.SendableList, EArg.Sendable, and_true]
      exact exCol_sendable 0 _ 0 rfl rfl
    · simp only [ESort.SendableList, and_true]
      exact ⟨exCol_sendable 1 _ 1 rfl rfl, by simp⟩
    · simpa only [Expr.Sendable] using exLit7_sendable

theorem exHash_type : exHash.recordType = .ok [.prim .i32 2 0, .prim .string 1 0] := by
  simp only [exHash]
  rw [hashJoin_recordType exSum_type exScan_type]
  rfl

theorem exHash_sendable : exHash.Sendable exRelReg := by
  simp only [exHash, Rel.Sendable]
  refine ⟨exSum_sendable, exScan_sendable, _, _, exSum_type, exScan_type, ?_, .inl trivial⟩
  intro k hk
  simp only [List.mem_cons, List.not_mem_nil, or_false] at hk
  rcases hk with rfl | rfl
  · exact ⟨⟨⟨_, _, _, rfl⟩, exCol_sendable 0 _ 0 rfl rfl⟩,
      ⟨⟨_, _, _, rfl⟩, exCol_sendable 0 _ 0 rfl rfl⟩, by simp⟩
  · exact ⟨⟨⟨_, _, _, rfl⟩, exCol_sendable 1 _ 1 rfl rfl⟩,
      ⟨⟨_, _, _, rfl⟩, exCol_sendable 1 _ 1 rfl rfl⟩, by simp⟩

theorem exHash'_type : exTree.exHash'.recordType = .ok [.prim .i32 2 0, .prim .string 1 0] := by
  have h := exHash_type
  simp only [Rel.recordType] at h
  simp only [exTree.exHash', Rel.recordType, Rel.directOutputSchema, h]
  rfl

theorem exSet_type : (Rel.set {} [exTree.exHash', exScan] 6 none).recordType =
    .ok [.prim .i32 2 0, .prim .string 1 0] := by
  have h := exHash'_type
  simp only [Rel.recordType] at h
  simp only [Rel.recordType, Rel.directOutputSchema, h]
  rfl

theorem exExt_type (d : ESort) :
    (Rel.extSingle {} (.fetch {} (.sort {} (.set {} [exTree.exHash', exScan] 6 none) [d] none)
      10 (-1) none) (.custom (fun tss => tss.flatten ++ [.prim .boolean 1 0]) 5)).recordType =
    .ok [.prim .i32 2 0, .prim .string 1 0, .prim .boolean 1 0] := by
  have h := exSet_type
  simp only [Rel.recordType] at h
  simp only [Rel.recordType, Rel.directOutputSchema] at *
  simp only [h, Rel.common, RelCommon.remap, Res.ok_bind]
  rfl

theorem exProj_type (d : ESort) :
    (Rel.project {} (.extSingle {} (.fetch {} (.sort {} (.set {} [exTree.exHash', exScan] 6 none)
      [d] none) 10 (-1) none) (.custom (fun tss => tss.flatten ++ [.prim .boolean 1 0]) 5))
      [exCol 2 (.prim .boolean 1 0)] (some 1)).recordType =
    .ok [.prim .i32 2 0, .prim .string 1 0, .prim .boolean 1 0, .prim .boolean 1 0] := by
  have h := exExt_type d
  simp only [Rel.recordType] at h
  rw [Rel.recordType, Rel.directOutputSchema, h]
  rfl

/-- the hypotheses of the round trip hold of the tree above -/
theorem exTree_sendable : exTree.Sendable exRelReg := by
  have hset : ∀ i ∈ [exTree.exHash', exScan], i.recordType =
      .ok [.prim .i32 2 0, .prim .string 1 0] := by
    intro i hi
    simp only [List.mem_cons, List.not_mem_nil, or_false] at hi
    rcases hi with rfl | rfl
    · exact exHash'_type
    · exact exScan_type
  simp only [exTree, Rel.Sendable, Rel.SendableList, ReadKind.Sendable, ExtDef.Sendable,
    ESort.SendableList, Expr.SendableList]
  refine ⟨⟨⟨⟨⟨⟨⟨?_, exScan_sendable, trivial⟩, by simp, by simp, _, fun i hi =>
      ⟨_, hset i hi, ?_, rfl⟩⟩, by simp, _, exSet_type, exCol_sendable 1 _ 1 rfl rfl, by simp⟩, ?_⟩,
    by simp, _, exExt_type _, exCol_sendable 2 _ 2 rfl rfl, trivial⟩,
    ⟨?_, .inl rfl, .inl rfl, by simp, ?_⟩, by simp, _, [.prim .date 2 0], exProj_type _, ?_,
    exCol_sendable 4 _ 4 rfl rfl, .inr ?_⟩, ?_⟩
  · simp only [exTree.exHash', Rel.Sendable, Expr.SendableList]
    exact ⟨exHash_sendable, by simp, _, exHash_type, exCol_sendable 0 _ 0 rfl rfl,
      exCol_sendable 1 _ 1 rfl rfl, trivial⟩
  · simp [Ty.PlanTypeList, Ty.PlanType]
  · simp [exRelReg]
  · simp [Ty.Sendable, Ty.PrecisionsOk, Ty.NoCompound]
  · simp [FileItem.Sendable]
  · simp only [Rel.recordType, Rel.directOutputSchema]; rfl
  · simpa only [Expr.Sendable] using exLit7_sendable
  · simp [Ty.Sendable, Ty.PrecisionsOk, Ty.NoCompound]

theorem exTree_written : ∃ m, exTree.toProto exRelReg.toReg = .ok m := by
  have : (exTree.toProto exRelReg.toReg).isOk = true := by
    simp [exTree, exTree.exHash', exHash, exSum, exScan, exCol, exLit7, Rel.toProto,
      Rel.toProtoList, NamedStruct.toMsg, ReadKind.toMsg, Measure.toMsg, AggFn.toMsg,
      JoinKey.toMsg, KeyComparison.toMsg, fieldRefToMsg, legacyKeys, allEquality, comparisonEq,
      Expr.toProto, Expr.optToProto, EArg.toProtoList, EArg.toProto, ESort.toProtoList,
      Expr.toProtoList, ERoot.toProto, refToProto, segToProto, segChildToProto, typeToProto,
      literalToProto, primLitKind, Res.mapL_cons, Res.mapL_nil]
  cases h : exTree.toProto exRelReg.toReg with
  | ok m => exact ⟨m, rfl⟩
  | err => simp [h] at this
  | panic => simp [h] at this

example : ∃ m, exTree.toProto exRelReg.toReg = .ok m ∧ Rel.fromProto exRelReg m = .ok exTree := by
  obtain ⟨m, hm⟩ := exTree_written
  exact ⟨m, hm, C74_roundtrip_partial _ _ _ exTree_sendable hm⟩

/-- **C74, virtual tables in the older form.** Rows of literals are read as rows of literal
expressions, in order (unreadable ones as nil, `C73_literals`); a table with both kinds of rows is refused. -/
theorem C74_literal_rows (reg : Reg) (values : List (List PLit)) :
    (∀ k, readTypeFromProto reg (.virt values []) = .ok k ↔
      ∃ rows : List (List Lit), k = .virt (rows.map (List.map Expr.ofLit)) ∧
        List.Forall₂ (List.Forall₂ fun m l => literalFromProto m = .ok l) values rows) ∧
    ∀ rows, values ≠ [] → rows ≠ [] → readTypeFromProto reg (.virt values rows) = .err := by
  constructor
  · intro k
    have hrow : ∀ (row : List PLit) (es : List Expr),
        (Res.mapL literalFromProto row >>= fun ls => .ok (ls.map Expr.ofLit)) = .ok es ↔
          ∃ ls, es = ls.map Expr.ofLit ∧ List.Forall₂ (fun m l => literalFromProto m = .ok l) row ls := by
      intro row es
      rw [Res.bind_eq_ok]
      constructor
      · rintro ⟨ls, h, he⟩
        cases he
        exact ⟨ls, rfl, mapL_forall₂.1 h⟩
      · rintro ⟨ls, rfl, h⟩
        exact ⟨ls, mapL_forall₂.2 h, rfl⟩
    have hrows : ∀ (vs : List (List PLit)) (ess : List (List Expr)),
        Res.mapL (fun row => Res.mapL literalFromProto row >>= fun ls => .ok (ls.map Expr.ofLit)) vs
          = .ok ess ↔ ∃ rows : List (List Lit), ess = rows.map (List.map Expr.ofLit) ∧
            List.Forall₂ (List.Forall₂ fun m l => literalFromProto m = .ok l) vs rows := by
      intro vs
      induction vs with
      | nil =>
        intro ess
        constructor
        · intro h; cases h; exact ⟨[], rfl, .nil⟩
        · rintro ⟨rows, rfl, h⟩; cases h; rfl
      | cons v vs ih =>
        intro ess
        simp only [Res.mapL_cons, Res.bind_eq_ok]
        constructor
        · rintro ⟨a, ha, b, hb, h⟩
          cases h
          obtain ⟨ls, rfl, hl⟩ := (hrow v a).1 (Res.bind_eq_ok.2 ha)
          obtain ⟨rows, rfl, hr⟩ := (ih b).1 hb
          exact ⟨ls :: rows, rfl, .cons hl hr⟩
        · rintro ⟨rows, rfl, h⟩
          cases h with
          | cons hl hr =>
            rename_i ls rows
            exact ⟨_, Res.bind_eq_ok.1 ((hrow v _).2 ⟨ls, rfl, hl⟩), _,
              (ih _).2 ⟨rows, rfl, hr⟩, rfl⟩
    have hn : ¬ (values.length > 0 ∧ ([] : List (List ExprMsg)).length > 0) := by simp
    simp only [readTypeFromProto, hn, if_false, Res.mapL_nil, Res.ok_bind, List.append_nil]
    rw [Res.bind_eq_ok]
    constructor
    · rintro ⟨ess, h, hk⟩
      cases hk
      obtain ⟨rows, rfl, hr⟩ := (hrows values ess).1 h
      exact ⟨rows, rfl, hr⟩
    · rintro ⟨rows, rfl, hr⟩
      exact ⟨_, (hrows values _).2 ⟨rows, rfl, hr⟩, rfl⟩
  · intro rows hv hr
    simp [readTypeFromProto, List.length_pos_iff.2 hv, List.length_pos_iff.2 hr]

/-- two rows of the older form -/
example : readTypeFromProto exReg (.virt [[.mk false 0 (.i32 7)], []] []) =
    .ok (.virt [[.lit exLit7], []]) := by
  refine ((C74_literal_rows exReg _).1 _).2 ⟨[[exLit7], []], rfl, .cons (.cons rfl .nil) (.cons .nil .nil)⟩

/-- **C74, negation: Iceberg tables.** Whatever its advanced extension, an Iceberg table is read back
without one; and given both a snapshot id and a snapshot time, without the time. -/
theorem C74_negation_iceberg (reg : RelReg) (c : RelCommon) (b : BaseRead) (uri id : String)
    (t : Int64) (adv : Option Nat) (m : RelMsg) (r : Rel)
    (h : Rel.toProto reg.toReg (.read c b (.iceberg uri t id adv)) = .ok m)
    (hr : Rel.fromProto reg m = .ok r) :
    ∃ b', r = .read c b' (.iceberg uri (if id = "" then t else 0) id none) := by
  simp only [Rel.toProto, ReadKind.toMsg, Res.ok_bind, Res.bind_eq_ok] at h
  obtain ⟨s, _, f, _, be, _, h⟩ := h
  cases h
  simp only [Rel.fromProto, Res.bind_eq_ok] at hr
  obtain ⟨k, hk, c', hc, s', _, f', _, be', _, hr⟩ := hr
  cases hr
  rw [common?_exact] at hc
  cases hc
  refine ⟨⟨s', f', be', (b.projection.map reg.maskTo).map reg.maskFrom, b.adv⟩, ?_⟩
  congr 1
  by_cases hid : id = ""
  · by_cases ht : t = 0
    · simp [snapshotToMsg, hid, ht, readTypeFromProto] at hk
      rw [← hk]; simp [hid, ht]
    · simp [snapshotToMsg, hid, ht, readTypeFromProto] at hk
      rw [← hk]; simp [hid]
  · simp [snapshotToMsg, hid, readTypeFromProto] at hk
    rw [← hk]; simp [hid]

/-- an Iceberg table with an extension of its own -/
def exIceberg : Rel :=
  .read {} ⟨⟨["a"], 2, 0, [.prim .i32 2 0]⟩, .nil, .nil, none, none⟩ (.iceberg "u" 5 "7" (some 1))

theorem exIceberg_read : ∃ m, exIceberg.toProto exRelReg.toReg = .ok m ∧
    Rel.fromProto exRelReg m = .ok (.read {}
      ⟨⟨["a"], 2, 0, [.prim .i32 2 0]⟩, .nil, .nil, none, none⟩ (.iceberg "u" 0 "7" none)) := by
  refine ⟨.read (some ⟨none, none, .direct⟩)
    (some ⟨["a"], some (2, 0, [.prim .i32 2 0])⟩) .nil .nil none none
    (.iceberg (some ("u", .id "7"))), ?_, ?_⟩
  · simp only [exIceberg, Rel.toProto, Expr.optToProto, Res.ok_bind]
    rfl
  · simp [Rel.fromProto, readTypeFromProto, commonFromProto?, commonFromProto,
      namedStructFromProto, Expr.optFromProto, ExprMsg.isNil, Res.mapL_cons, Res.mapL_nil,
      typeFromProto, primFromProto]

/-- **C74, negation.** -/
theorem C74_negation : ¬ C74_statement := by
  intro h
  obtain ⟨m, hm, hr⟩ := exIceberg_read
  have := h exRelReg exIceberg m hm
  rw [hr] at this
  simp [exIceberg] at this

/-- **C74, negation: groupings.** Grouping references without grouping expressions are read back as
empty groups. -/
theorem C74_negation_groupings (reg : RelReg) (c : RelCommon) (i : Rel) (ms : List Measure)
    (refs : List (List UInt32)) (adv : Option Nat) (m : RelMsg) (r : Rel)
    (h : Rel.toProto reg.toReg (.aggregate c i ms [] refs adv) = .ok m)
    (hr : Rel.fromProto reg m = .ok r) :
    ∃ i' ms', r = .aggregate c i' ms' [] (List.replicate refs.length []) adv := by
  simp only [Rel.toProto, Expr.toProtoList, Res.ok_bind, Res.bind_eq_ok] at h
  obtain ⟨ms1, _, i1, _, h⟩ := h
  cases h
  simp only [Rel.fromProto, Res.bind_eq_ok] at hr
  obtain ⟨i2, _, base, _, g, hg, ms2, _, c', hc, hr⟩ := hr
  cases hr
  rw [common_exact] at hc
  cases hc
  have : groupingsFromProto reg (some base) [] (refs.map fun r => ⟨[], r⟩) =
      .ok ([], List.replicate refs.length []) := by
    exact legacyGroups_none reg (some base) refs
  rw [this] at hg
  cases hg
  exact ⟨_, _, rfl⟩

/-- **C74, negation: files.** A path type that is none of the four defined ones is written without
its path, and read back as an empty URI path. -/
theorem C74_negation_path (f : FileItem) (h : ¬ f.Sendable) :
    fileFromProto f.toMsg = { f with pathType := 0, path := "" } := by
  obtain ⟨t, p, a, b, c, d⟩ := f
  simp only [FileItem.Sendable, not_or] at h
  simp [FileItem.toMsg, fileFromProto, h]

example : ¬ (⟨7, "/data", 0, 0, 0, none⟩ : FileItem).Sendable := by simp [FileItem.Sendable]

/-! ## C45 -/

/-- **C45, in memory.** Hint, output mapping (nil, empty or not) and extension of a common part are
read back as written. -/
theorem C45_memory (c : RelCommon) : commonFromProto (some c.toMsg) = .ok c := common_exact c

/-- **C45, for relations.** Whatever relation is written, and whatever registry it is read with: if
reading succeeds, the common part is the one written. -/
theorem C45_relation (reg : Reg) (reg' : RelReg) (r r' : Rel) (m : RelMsg)
    (h : r.toProto reg = .ok m) (hr : Rel.fromProto reg' m = .ok r') : r'.common = r.common := by
  cases r with
  | read c b k =>
    simp only [Rel.toProto, Res.bind_eq_ok] at h
    obtain ⟨_, _, _, _, _, _, _, _, h⟩ := h
    cases h
    simp only [Rel.fromProto, common?_exact, Res.ok_bind, Res.bind_eq_ok] at hr
    obtain ⟨_, _, _, _, _, _, _, _, hr⟩ := hr
    cases hr; rfl
  | project c i es adv =>
    simp only [Rel.toProto, Res.bind_eq_ok] at h
    obtain ⟨_, _, _, _, h⟩ := h
    cases h
    simp only [Rel.fromProto, common?_exact, Res.ok_bind, Res.bind_eq_ok] at hr
    obtain ⟨_, _, _, _, _, _, hr⟩ := hr
    split at hr <;> cases hr; rfl
  | join c l r e p t adv =>
    simp only [Rel.toProto, Res.bind_eq_ok] at h
    obtain ⟨_, _, _, _, _, _, _, _, h⟩ := h
    cases h
    simp only [Rel.fromProto] at hr
    split at hr
    · cases hr
    simp only [common_exact, Res.ok_bind, Res.bind_eq_ok] at hr
    obtain ⟨_, _, _, _, _, _, _, _, _, _, _, _, hr⟩ := hr
    cases hr; rfl
  | cross c l r adv =>
    simp only [Rel.toProto, Res.bind_eq_ok] at h
    obtain ⟨_, _, _, _, h⟩ := h
    cases h
    simp only [Rel.fromProto, common_exact, Res.ok_bind, Res.bind_eq_ok] at hr
    obtain ⟨_, _, _, _, hr⟩ := hr
    cases hr; rfl
  | fetch c i o n adv =>
    simp only [Rel.toProto, Res.bind_eq_ok] at h
    obtain ⟨_, _, h⟩ := h
    cases h
    simp only [Rel.fromProto, common?_exact, Res.ok_bind, Res.bind_eq_ok] at hr
    obtain ⟨_, _, hr⟩ := hr
    cases hr; rfl
  | aggregate c i ms es refs adv =>
    simp only [Rel.toProto, Res.bind_eq_ok] at h
    obtain ⟨_, _, _, _, _, _, h⟩ := h
    cases h
    simp only [Rel.fromProto, common_exact, Res.ok_bind, Res.bind_eq_ok] at hr
    obtain ⟨_, _, _, _, _, _, _, _, hr⟩ := hr
    cases hr; rfl
  | sort c i ss adv =>
    simp only [Rel.toProto, Res.bind_eq_ok] at h
    obtain ⟨_, _, _, _, h⟩ := h
    cases h
    simp only [Rel.fromProto, common_exact, Res.ok_bind, Res.bind_eq_ok] at hr
    obtain ⟨_, _, _, _, _, _, hr⟩ := hr
    split at hr <;> cases hr; rfl
  | filter c i e adv =>
    simp only [Rel.toProto, Res.bind_eq_ok] at h
    obtain ⟨_, _, _, _, h⟩ := h
    cases h
    simp only [Rel.fromProto, common?_exact, Res.ok_bind, Res.bind_eq_ok] at hr
    obtain ⟨_, _, _, _, _, _, hr⟩ := hr
    cases hr; rfl
  | set c is op adv =>
    simp only [Rel.toProto, Res.bind_eq_ok] at h
    obtain ⟨_, _, h⟩ := h
    cases h
    simp only [Rel.fromProto] at hr
    split at hr
    · cases hr
    simp only [Res.bind_eq_ok] at hr
    obtain ⟨is', _, hr⟩ := hr
    split at hr
    · cases hr
    split at hr
    · cases hr
    simp only [common_exact, Res.ok_bind, Res.bind_eq_ok] at hr
    obtain ⟨_, _, _, _, hr⟩ := hr
    cases hr; rfl
  | extSingle c i d =>
    simp only [Rel.toProto, Res.bind_eq_ok] at h
    obtain ⟨_, _, h⟩ := h
    cases h
    simp only [Rel.fromProto, common_exact, Res.ok_bind, Res.bind_eq_ok] at hr
    obtain ⟨_, _, _, _, hr⟩ := hr
    cases hr; rfl
  | extLeaf c d =>
    simp only [Rel.toProto] at h
    cases h
    simp only [Rel.fromProto, common_exact, Res.ok_bind, Res.bind_eq_ok] at hr
    obtain ⟨_, _, hr⟩ := hr
    cases hr; rfl
  | extMulti c is d =>
    simp only [Rel.toProto, Res.bind_eq_ok] at h
    obtain ⟨_, _, h⟩ := h
    cases h
    simp only [Rel.fromProto, common_exact, Res.ok_bind, Res.bind_eq_ok] at hr
    obtain ⟨_, _, _, _, hr⟩ := hr
    cases hr; rfl
  | hashJoin c l r ks p t adv =>
    simp only [Rel.toProto, Res.bind_eq_ok] at h
    obtain ⟨_, _, _, _, _, _, _, _, _, _, h⟩ := h
    cases h
    simp only [Rel.fromProto, common_exact, Res.ok_bind, Res.bind_eq_ok] at hr
    obtain ⟨_, _, _, _, _, _, _, _, _, _, hr⟩ := hr
    split at hr
    · cases hr; rfl
    · simp only [Res.bind_eq_ok] at hr
      obtain ⟨_, _, _, _, hr⟩ := hr
      cases hr; rfl
  | mergeJoin c l r ks p t adv =>
    simp only [Rel.toProto, Res.bind_eq_ok] at h
    obtain ⟨_, _, _, _, _, _, _, _, _, _, h⟩ := h
    cases h
    simp only [Rel.fromProto, common_exact, Res.ok_bind, Res.bind_eq_ok] at hr
    obtain ⟨_, _, _, _, _, _, _, _, _, _, hr⟩ := hr
    split at hr
    · cases hr; rfl
    · simp only [Res.bind_eq_ok] at hr
      obtain ⟨_, _, _, _, hr⟩ := hr
      cases hr; rfl
  | write c ns adv s op i mode =>
    simp only [Rel.toProto, Res.bind_eq_ok] at h
    obtain ⟨_, _, _, _, h⟩ := h
    cases h
    simp only [Rel.fromProto, common?_exact, Res.ok_bind, Res.bind_eq_ok] at hr
    obtain ⟨_, _, _, _, hr⟩ := hr
    split at hr
    · cases hr; rfl
    · cases hr

/-- **C45, in full**, for a common part that went over the wire as bytes. -/
def C45_statement : Prop := ∀ c : RelCommon, commonFromProto (some c.toMsg.overWire) = .ok c

theorem overWire_common {c : RelCommon} (h : c.mapping ≠ some []) : c.toMsg.overWire = c.toMsg := by
  unfold RelCommon.toMsg CommonMsg.overWire
  cases hm : c.mapping with
  | none => rfl
  | some m =>
    cases m with
    | nil => exact absurd hm h
    | cons i is => rfl

/-- **C45, as bytes.** A common part whose mapping is not the empty one is read back as written.
(Missing: the empty mapping.) -/
theorem C45_bytes_partial (c : RelCommon) (h : c.mapping ≠ some []) :
    commonFromProto (some c.toMsg.overWire) = .ok c := by
  rw [overWire_common h]; exact common_exact c

example : (⟨some 3, some [1, 0], some 8⟩ : RelCommon).mapping ≠ some [] := by simp

/-- **C45, negation.** The empty mapping (no columns) becomes no mapping (all columns), for every
hint and extension. -/
theorem C45_negation_empty (hint adv : Option Nat) :
    commonFromProto (some (RelCommon.toMsg ⟨hint, some [], adv⟩).overWire) =
      .ok ⟨hint, none, adv⟩ := rfl

theorem C45_negation : ¬ C45_statement := by
  intro h
  have := h ⟨none, some [], none⟩
  simp [RelCommon.toMsg, CommonMsg.overWire, commonFromProto] at this

mutual
theorem overWire_eq (reg : Reg) : ∀ (r : Rel) (m : RelMsg), r.NoEmptyMapping →
    r.toProto reg = .ok m → m.overWire = m
  | .read c b k, m, hn, h => by
      simp only [Rel.toProto, Res.bind_eq_ok] at h
      obtain ⟨_, _, _, _, _, _, _, _, h⟩ := h
      cases h
      simp only [Rel.NoEmptyMapping] at hn
      simp only [RelMsg.overWire, Option.map_some, overWire_common hn]
  | .project c i es adv, m, hn, h => by
      simp only [Rel.toProto, Res.bind_eq_ok] at h
      obtain ⟨_, _, _, hi, h⟩ := h
      cases h
      simp only [Rel.NoEmptyMapping] at hn
      simp only [RelMsg.overWire, Option.map_some, overWire_common hn.1,
        overWire_eq reg i _ hn.2 hi]
  | .join c l r e p t adv, m, hn, h => by
      simp only [Rel.toProto, Res.bind_eq_ok] at h
      obtain ⟨_, hl, _, hr, _, _, _, _, h⟩ := h
      cases h
      simp only [Rel.NoEmptyMapping] at hn
      simp only [RelMsg.overWire, Option.map_some, overWire_common hn.1,
        overWire_eq reg l _ hn.2.1 hl, overWire_eq reg r _ hn.2.2 hr]
  | .cross c l r adv, m, hn, h => by
      simp only [Rel.toProto, Res.bind_eq_ok] at h
      obtain ⟨_, hl, _, hr, h⟩ := h
      cases h
      simp only [Rel.NoEmptyMapping] at hn
      simp only [RelMsg.overWire, Option.map_some, overWire_common hn.1,
        overWire_eq reg l _ hn.2.1 hl, overWire_eq reg r _ hn.2.2 hr]
  | .fetch c i o n adv, m, hn, h => by
      simp only [Rel.toProto, Res.bind_eq_ok] at h
      obtain ⟨_, hi, h⟩ := h
      cases h
      simp only [Rel.NoEmptyMapping] at hn
      simp only [RelMsg.overWire, Option.map_some, overWire_common hn.1,
        overWire_eq reg i _ hn.2 hi]
  | .aggregate c i ms es refs adv, m, hn, h => by
      simp only [Rel.toProto, Res.bind_eq_ok] at h
      obtain ⟨_, _, _, _, _, hi, h⟩ := h
      cases h
      simp only [Rel.NoEmptyMapping] at hn
      simp only [RelMsg.overWire, Option.map_some, overWire_common hn.1,
        overWire_eq reg i _ hn.2 hi]
  | .sort c i ss adv, m, hn, h => by
      simp only [Rel.toProto, Res.bind_eq_ok] at h
      obtain ⟨_, _, _, hi, h⟩ := h
      cases h
      simp only [Rel.NoEmptyMapping] at hn
      simp only [RelMsg.overWire, Option.map_some, overWire_common hn.1,
        overWire_eq reg i _ hn.2 hi]
  | .filter c i e adv, m, hn, h => by
      simp only [Rel.toProto, Res.bind_eq_ok] at h
      obtain ⟨_, hi, _, _, h⟩ := h
      cases h
      simp only [Rel.NoEmptyMapping] at hn
      simp only [RelMsg.overWire, Option.map_some, overWire_common hn.1,
        overWire_eq reg i _ hn.2 hi]
  | .set c is op adv, m, hn, h => by
      simp only [Rel.toProto, Res.bind_eq_ok] at h
      obtain ⟨_, hi, h⟩ := h
      cases h
      simp only [Rel.NoEmptyMapping] at hn
      simp only [RelMsg.overWire, Option.map_some, overWire_common hn.1,
        overWire_eqList reg is _ hn.2 hi]
  | .extSingle c i d, m, hn, h => by
      simp only [Rel.toProto, Res.bind_eq_ok] at h
      obtain ⟨_, hi, h⟩ := h
      cases h
      simp only [Rel.NoEmptyMapping] at hn
      simp only [RelMsg.overWire, Option.map_some, overWire_common hn.1,
        overWire_eq reg i _ hn.2 hi]
  | .extLeaf c d, m, hn, h => by
      simp only [Rel.toProto] at h
      cases h
      simp only [Rel.NoEmptyMapping] at hn
      simp only [RelMsg.overWire, Option.map_some, overWire_common hn]
  | .extMulti c is d, m, hn, h => by
      simp only [Rel.toProto, Res.bind_eq_ok] at h
      obtain ⟨_, hi, h⟩ := h
      cases h
      simp only [Rel.NoEmptyMapping] at hn
      simp only [RelMsg.overWire, Option.map_some, overWire_common hn.1,
        overWire_eqList reg is _ hn.2 hi]
  | .hashJoin c l r ks p t adv, m, hn, h => by
      simp only [Rel.toProto, Res.bind_eq_ok] at h
      obtain ⟨_, hl, _, hr, _, _, _, _, _, _, h⟩ := h
      cases h
      simp only [Rel.NoEmptyMapping] at hn
      simp only [RelMsg.overWire, Option.map_some, overWire_common hn.1,
        overWire_eq reg l _ hn.2.1 hl, overWire_eq reg r _ hn.2.2 hr]
  | .mergeJoin c l r ks p t adv, m, hn, h => by
      simp only [Rel.toProto, Res.bind_eq_ok] at h
      obtain ⟨_, hl, _, hr, _, _, _, _, _, _, h⟩ := h
      cases h
      simp only [Rel.NoEmptyMapping] at hn
      simp only [RelMsg.overWire, Option.map_some, overWire_common hn.1,
        overWire_eq reg l _ hn.2.1 hl, overWire_eq reg r _ hn.2.2 hr]
  | .write c ns adv s op i mode, m, hn, h => by
      simp only [Rel.toProto, Res.bind_eq_ok] at h
      obtain ⟨_, _, _, hi, h⟩ := h
      cases h
      simp only [Rel.NoEmptyMapping] at hn
      simp only [RelMsg.overWire, Option.map_some, overWire_common hn.1,
        overWire_eq reg i _ hn.2 hi]
theorem overWire_eqList (reg : Reg) : ∀ (rs : List Rel) (ms : List RelMsg),
    Rel.NoEmptyMappingList rs → Rel.toProtoList reg rs = .ok ms → RelMsg.overWireList ms = ms
  | [], ms, hn, h => by
      simp only [Rel.toProtoList] at h
      cases h
      simp only [RelMsg.overWireList]
  | r :: rs, ms, hn, h => by
      simp only [Rel.toProtoList, Res.bind_eq_ok] at h
      obtain ⟨a, ha, b, hb, h⟩ := h
      cases h
      simp only [Rel.NoEmptyMappingList] at hn
      simp only [RelMsg.overWireList, overWire_eq reg r _ hn.1 ha, overWire_eqList reg rs _ hn.2 hb]
end

/-- **C45, trees as bytes.** A tree that can be carried and has no empty mapping anywhere is read
back from bytes as it was; so are the mappings of all its relations. (Missing: the empty
mapping.) -/
theorem C45_tree_partial (reg : RelReg) (r : Rel) (m : RelMsg) (hs : r.Sendable reg)
    (hn : r.NoEmptyMapping) (h : r.toProto reg.toReg = .ok m) :
    Rel.fromProto reg m.overWire = .ok r := by
  rw [overWire_eq _ r m hn h]
  exact rel_exact reg r m hs h

/-- the tree above has no empty mapping -/
example : exTree.NoEmptyMapping := by
  simp [exTree, exTree.exHash', exHash, exSum, exScan, Rel.NoEmptyMapping, Rel.NoEmptyMappingList]

/-- **C45, negation, observed on schemas.** A scan mapped to no columns has no columns; read back
from bytes it has all the columns of its table. -/
theorem C45_negation_schema : ∃ (r : Rel) (m : RelMsg) (r' : Rel),
    r.recordType = .ok [] ∧ r.toProto exRelReg.toReg = .ok m ∧
    Rel.fromProto exRelReg m.overWire = .ok r' ∧ r'.recordType = .ok [.prim .i32 2 0] := by
  refine ⟨.read { mapping := some [] } ⟨⟨["a"], 2, 0, [.prim .i32 2 0]⟩, .nil, .nil, none, none⟩
      (.named ["t"] none),
    .read (some ⟨none, none, .emit (some [])⟩) (some ⟨["a"], some (2, 0, [.prim .i32 2 0])⟩) .nil
      .nil none none (.named ["t"] none),
    .read {} ⟨⟨["a"], 2, 0, [.prim .i32 2 0]⟩, .nil, .nil, none, none⟩ (.named ["t"] none), ?_, ?_,
    ?_, ?_⟩
  · simp only [Rel.recordType, Rel.directOutputSchema]; rfl
  · simp only [Rel.toProto, Expr.optToProto, Res.ok_bind]; rfl
  · simp [RelMsg.overWire, CommonMsg.overWire, Rel.fromProto, readTypeFromProto,
      commonFromProto?, commonFromProto, namedStructFromProto, Expr.optFromProto, ExprMsg.isNil,
      Res.mapL_cons, Res.mapL_nil, typeFromProto, primFromProto]
  · simp only [Rel.recordType, Rel.directOutputSchema]; rfl

/-! ## C46 -/

/-- **C46, in full.** -/
def C46_statement : Prop := ∀ (reg : RelReg) (c : RelCommon) (names : List String)
  (adv : Option Nat) (s : NamedStruct) (op : Int32) (i : Rel) (mode : OutputMode) (m : RelMsg),
  i.Sendable reg → (∀ t ∈ s.types, t.Sendable) →
  Rel.toProto reg.toReg (.write c names adv s op i mode) = .ok m →
  Rel.fromProto reg m = .ok (.write c names adv s op i mode)

/-- **C46, round trip.** An insert, a delete or a CREATE TABLE AS keeps mapping, names, extension,
schema, operation and input; the output mode is gone. (Missing: the output mode and the other
operations.) -/
theorem C46_roundtrip_partial (reg : RelReg) (c : RelCommon) (names : List String)
    (adv : Option Nat) (s : NamedStruct) (op : Int32) (i : Rel) (mode : OutputMode) (m : RelMsg)
    (hi : i.Sendable reg) (ht : ∀ t ∈ s.types, t.Sendable) (hop : op = 1 ∨ op = 2 ∨ op = 4)
    (h : Rel.toProto reg.toReg (.write c names adv s op i mode) = .ok m) :
    Rel.fromProto reg m = .ok (.write c names adv s op i .unspecified) := by
  refine rel_exact reg _ m ?_ ?_
  · simp only [Rel.Sendable]
    exact ⟨hi, ht, hop, trivial⟩
  · simpa only [Rel.toProto] using h

/-- **C46, negation: the schema.** Whatever a write's output mode was, what is read back has none,
and asking it for its schema panics. -/
theorem C46_negation_mode (reg : RelReg) (c : RelCommon) (names : List String) (adv : Option Nat)
    (s : NamedStruct) (op : Int32) (i : Rel) (mode : OutputMode) (m : RelMsg) (r : Rel)
    (h : Rel.toProto reg.toReg (.write c names adv s op i mode) = .ok m)
    (hr : Rel.fromProto reg m = .ok r) :
    (∃ i' s', r = .write c names adv s' op i' .unspecified) ∧ r.recordType = .panic := by
  simp only [Rel.toProto, Res.bind_eq_ok] at h
  obtain ⟨s1, _, i1, _, h⟩ := h
  cases h
  simp only [Rel.fromProto, common?_exact, Res.ok_bind, Res.bind_eq_ok] at hr
  obtain ⟨i2, _, s2, _, hr⟩ := hr
  split at hr
  · cases hr
    refine ⟨⟨_, _, rfl⟩, ?_⟩
    simp only [Rel.recordType, Rel.directOutputSchema]
    rfl
  · cases hr

/-- **C46, negation: other operations.** An update, or an unspecified operation, is written but
cannot be read. -/
theorem C46_negation_op (reg : RelReg) (c : RelCommon) (names : List String) (adv : Option Nat)
    (s : NamedStruct) (op : Int32) (i : Rel) (mode : OutputMode) (m : RelMsg) (r : Rel)
    (hop : ¬ (op = 1 ∨ op = 2 ∨ op = 4))
    (h : Rel.toProto reg.toReg (.write c names adv s op i mode) = .ok m) :
    Rel.fromProto reg m ≠ .ok r := by
  intro hr
  simp only [Rel.toProto, Res.bind_eq_ok] at h
  obtain ⟨s1, _, i1, _, h⟩ := h
  cases h
  simp only [Rel.fromProto, common?_exact, Res.ok_bind, Res.bind_eq_ok] at hr
  obtain ⟨i2, _, s2, _, hr⟩ := hr
  have hw : writeOpRead op = false := by
    simp only [not_or] at hop
    simp [writeOpRead, hop]
  simp [hw] at hr

/-- an insert of the scan, as the builder makes it -/
def exInsert : Rel :=
  .write {} ["out"] none ⟨["x"], 2, 0, [.prim .i32 2 0]⟩ 1 exScan .noOutput

theorem exInsert_written : ∃ m, exInsert.toProto exRelReg.toReg = .ok m := by
  have : (exInsert.toProto exRelReg.toReg).isOk = true := by
    simp [exInsert, exScan, exLit7, Rel.toProto, NamedStruct.toMsg, ReadKind.toMsg, Expr.toProto,
      Expr.optToProto, typeToProto, literalToProto, primLitKind, Res.mapL_cons, Res.mapL_nil]
  cases h : exInsert.toProto exRelReg.toReg with
  | ok m => exact ⟨m, rfl⟩
  | err => simp [h] at this
  | panic => simp [h] at this

/-- An insert has an empty schema when built and panics when asked for it once read back; the other
parts are kept. -/
example : ∃ m, exInsert.recordType = .ok [] ∧ exInsert.toProto exRelReg.toReg = .ok m ∧
    Rel.fromProto exRelReg m = .ok (.write {} ["out"] none ⟨["x"], 2, 0, [.prim .i32 2 0]⟩ 1 exScan
      .unspecified) := by
  obtain ⟨m, hm⟩ := exInsert_written
  refine ⟨m, ?_, hm, C46_roundtrip_partial _ _ _ _ _ _ _ _ _ exScan_sendable ?_ (.inl rfl) hm⟩
  · simp only [exInsert, Rel.recordType, Rel.directOutputSchema]; rfl
  · simp [Ty.Sendable, Ty.PrecisionsOk, Ty.NoCompound]

/-- **C46, negation.** -/
theorem C46_negation : ¬ C46_statement := by
  intro h
  obtain ⟨m, hm⟩ := exInsert_written
  have h1 := h exRelReg _ _ _ _ _ _ _ _ exScan_sendable
    (by simp [Ty.Sendable, Ty.PrecisionsOk, Ty.NoCompound]) hm
  obtain ⟨⟨i, s, h2⟩, _⟩ := C46_negation_mode exRelReg _ _ _ _ _ _ _ _ _ hm h1
  cases h2

/-! ## C47 -/

/-- **C47, in full**: every list of keys that can be written is read back. -/
def C47_statement : Prop := ∀ (reg : Reg) (ls rs : List Ty) (ks : List JoinKey)
  (kms : List JoinKeyMsg) (lks rks : List FieldRefMsg),
  Res.mapL (JoinKey.toMsg reg) ks = .ok kms → legacyKeys reg ks = .ok (lks, rks) →
  joinKeysFromProto reg ls rs kms lks rks = .ok ks

/-- **C47.** The keys of a hash join or merge join come back the same, with the same comparisons, in
the same order, whether the message has the legacy fields or not. When all keys compare for equality
(comparison 1) the legacy fields alone are read as the same keys; otherwise no legacy field is
written. (Missing: keys that are masks, or refer to outer rows or lambda parameters, see C72.) -/
theorem C47_keys_partial (reg : Reg) (ls rs : List Ty) (ks : List JoinKey)
    (kms : List JoinKeyMsg) (lks rks : List FieldRefMsg) (hs : ∀ k ∈ ks, k.Sendable reg ls rs)
    (hk : Res.mapL (JoinKey.toMsg reg) ks = .ok kms) (hl : legacyKeys reg ks = .ok (lks, rks)) :
    joinKeysFromProto reg ls rs kms lks rks = .ok ks ∧
    (∀ lks' rks', ks ≠ [] → joinKeysFromProto reg ls rs kms lks' rks' = .ok ks) ∧
    ((∀ k ∈ ks, k.comparison = .simple 1) → joinKeysFromProto reg ls rs [] lks rks = .ok ks) ∧
    ((∃ k ∈ ks, k.comparison ≠ .simple 1) → lks = [] ∧ rks = []) := by
  refine ⟨joinKeys_exact hs hk hl, ?_, ?_, ?_⟩
  · intro lks' rks' hne
    have hlen := mapL_length' _ _ hk
    have : kms.length > 0 := by rw [hlen]; exact List.length_pos_iff.2 hne
    simp only [joinKeysFromProto, this, if_true]
    exact mapL_exact _ _ (fun k hk m hm => joinKey_exact (hs k hk) hm) hk
  · intro he
    have heq : allEquality ks = true := by
      simp only [allEquality, List.all_eq_true]
      intro k hk
      simp [he k hk, comparisonEq]
    simp only [legacyKeys, heq, if_true, Res.bind_eq_ok] at hl
    obtain ⟨lrs, hlr, hl⟩ := hl
    cases hl
    simp only [joinKeysFromProto, List.length_nil, gt_iff_lt, Nat.lt_irrefl, if_false,
      List.length_map, ne_eq, not_true_eq_false, zip_map_fst_snd]
    exact legacy_exact ks lrs hs heq hlr
  · rintro ⟨k, hk, hc⟩
    have heq : allEquality ks = false := by
      simp only [allEquality, List.all_eq_false]
      exact ⟨k, hk, by simpa [comparisonEq] using hc⟩
    simp [legacyKeys, heq] at hl
    exact hl

/-- **C47, as read by a consumer that only knows the legacy fields.** The hash or merge join written
for equality keys, without its list of keys, is still read as the same relation. -/
theorem C47_legacy_partial (reg : RelReg) (c : RelCommon) (l r : Rel) (ks : List JoinKey) (p : Expr)
    (t : HashMergeJoinType) (adv : Option Nat) (he : ∀ k ∈ ks, k.comparison = .simple 1) :
    (∀ c' l' r' kms lks rks p' t' adv', (Rel.hashJoin c l r ks p t adv).Sendable reg →
      (Rel.hashJoin c l r ks p t adv).toProto reg.toReg =
        .ok (.hashJoin c' l' r' kms lks rks p' t' adv') →
      Rel.fromProto reg (.hashJoin c' l' r' [] lks rks p' t' adv') =
        .ok (.hashJoin c l r ks p t adv)) ∧
    (∀ c' l' r' kms lks rks p' t' adv', (Rel.mergeJoin c l r ks p t adv).Sendable reg →
      (Rel.mergeJoin c l r ks p t adv).toProto reg.toReg =
        .ok (.mergeJoin c' l' r' kms lks rks p' t' adv') →
      Rel.fromProto reg (.mergeJoin c' l' r' [] lks rks p' t' adv') =
        .ok (.mergeJoin c l r ks p t adv)) := by
  constructor
  · intro c' l' r' kms lks rks p' t' adv' hs h
    have hx := rel_exact reg _ _ hs h
    simp only [Rel.toProto, Res.bind_eq_ok] at h
    obtain ⟨l1, hl, r1, hr, k1, hk, lr, hlr, p1, hp, h⟩ := h
    cases h
    simp only [Rel.Sendable] at hs
    obtain ⟨hsl, hsr, ls, rs, hls, hrs, hks, _⟩ := hs
    have h1 := (C47_keys_partial reg.toReg ls rs ks kms lr.1 lr.2 hks hk hlr).2.2.1 he
    have h2 := (C47_keys_partial reg.toReg ls rs ks kms lr.1 lr.2 hks hk hlr).1
    simp only [Rel.fromProto, rel_exact reg l _ hsl hl, rel_exact reg r _ hsr hr, hls, hrs,
      Res.ok_bind, h2] at hx
    simp only [Rel.fromProto, rel_exact reg l _ hsl hl, rel_exact reg r _ hsr hr, hls, hrs,
      Res.ok_bind, h1]
    exact hx
  · intro c' l' r' kms lks rks p' t' adv' hs h
    have hx := rel_exact reg _ _ hs h
    simp only [Rel.toProto, Res.bind_eq_ok] at h
    obtain ⟨l1, hl, r1, hr, k1, hk, lr, hlr, p1, hp, h⟩ := h
    cases h
    simp only [Rel.Sendable] at hs
    obtain ⟨hsl, hsr, ls, rs, hls, hrs, hks, _⟩ := hs
    have h1 := (C47_keys_partial reg.toReg ls rs ks kms lr.1 lr.2 hks hk hlr).2.2.1 he
    have h2 := (C47_keys_partial reg.toReg ls rs ks kms lr.1 lr.2 hks hk hlr).1
    simp only [Rel.fromProto, rel_exact reg l _ hsl hl, rel_exact reg r _ hsr hr, hls, hrs,
      Res.ok_bind, h2] at hx
    simp only [Rel.fromProto, rel_exact reg l _ hsl hl, rel_exact reg r _ hsr hr, hls, hrs,
      Res.ok_bind, h1]
    exact hx

/-- the hypotheses hold of two equality keys, and of keys that compare otherwise -/
example :
    let i := exCol 0 (.prim .i32 2 0)
    let s := exCol 1 (.prim .string 1 0)
    let ts : List Ty := [.prim .i32 2 0, .prim .string 1 0]
    (∀ k ∈ [(⟨i, i, .simple 1⟩ : JoinKey), ⟨s, s, .simple 1⟩, ⟨i, s, .simple 3⟩, ⟨i, i, .custom 4⟩],
      k.Sendable exReg ts ts) := by
  intro i s ts
  have hi : i.RefSendable exReg (some ts) := ⟨⟨_, _, _, rfl⟩, exCol_sendable 0 _ 0 rfl rfl⟩
  have hs : s.RefSendable exReg (some ts) := ⟨⟨_, _, _, rfl⟩, exCol_sendable 1 _ 1 rfl rfl⟩
  intro k hk
  simp only [List.mem_cons, List.not_mem_nil, or_false] at hk
  rcases hk with rfl | rfl | rfl | rfl
  · exact ⟨hi, hi, by simp⟩
  · exact ⟨hs, hs, by simp⟩
  · exact ⟨hi, hs, by simp⟩
  · exact ⟨hi, hi, by simp⟩

/-- **C47, negation of the full statement**: a key on a column of an outer row is read back without
the type it recorded. -/
theorem C47_negation : ¬ C47_statement := by
  intro h
  have := h exReg [.prim .i32 2 0] [.prim .i32 2 0]
    [⟨.fieldRef (.outer 1) (.seg (.structField 0 .nil)) (some (.prim .i32 2 0)),
      .fieldRef .rootReference (.seg (.structField 0 .nil)) (some (.prim .i32 2 0)), .simple 2⟩]
    [⟨some (.outer 1, .direct (.structField 0 .nil)),
      some (.rootReference, .direct (.structField 0 .nil)), .simple 2⟩] [] [] (by
      simp [Res.mapL_cons, Res.mapL_nil, JoinKey.toMsg, fieldRefToMsg, refToProto, segToProto,
        segChildToProto, ERoot.toProto, KeyComparison.toMsg])
    (by simp [legacyKeys, allEquality, comparisonEq])
  simp [joinKeysFromProto, Res.mapL_cons, Res.mapL_nil, joinKeyFromProto, fieldRefFromProto,
    Expr.fromProto, ERoot.fromProto, refFromProto, segFromProto, Seg.isNil, comparisonFromProto,
    Res.bind_eq_ok] at this

/-! ## C75 -/

/-- **C75, in full**: every aggregate function read from a message has a name. -/
def C75_statement : Prop := ∀ (reg : Reg) (base : Option (List Ty)) (m : AggMsg) (f : AggFn),
  aggFromProto reg base (some m) = .ok f → f.name ≠ .panic

/-- **C75.** An aggregate function whose anchor is registered is read with the registered
declaration, which names it. (Missing: functions without a registered declaration.) -/
theorem C75_registered_partial (reg : Reg) (base : Option (List Ty)) (m : AggMsg) (f : AggFn)
    (decl : String) (hd : decl ≠ "") (hr : reg.aggregate m.ref = some decl)
    (h : aggFromProto reg base (some m) = .ok f) : f.name = .ok decl ∧ f.a.funcRef = m.ref := by
  unfold aggFromProto at h
  split at h
  · cases h
  · rename_i hm
    cases hm
    split at h
    · cases h
    simp only [resolveAgg, hr, Res.bind_eq_ok] at h
    obtain ⟨as, _, ss, _, g, hg, t, _, h⟩ := h
    split at hg
    · cases hg
    · cases hg
      cases h
      simp [AggFn.name, hd]

example : ∃ f, aggFromProto exRelReg.toReg none
    (some ⟨4, [], some (.prim .i64 1 0), 3, 1, [], []⟩) = .ok f ∧ f.name = .ok "sum" := by
  refine ⟨⟨⟨4, "sum", [], .prim .i64 1 0⟩, 3, 1, [], []⟩, ?_, rfl⟩
  simp [aggFromProto, EArg.fromProtoList, ESort.fromProtoList, resolveAgg, exRelReg, exReg,
    typeFromProto, primFromProto]

/-- **C75, negation.** An aggregate function that is declared in the plan but not in the collection
is read without complaint, and asking for its name panics. (For a scalar or window function in the
same situation a declaration is made up, `C75_scalar`.) -/
theorem C75_negation_unregistered (reg : Reg) (base : Option (List Ty)) (m : AggMsg) (f : AggFn)
    (hr : reg.aggregate m.ref = none) (h : aggFromProto reg base (some m) = .ok f) :
    f.name = .panic := by
  unfold aggFromProto at h
  split at h
  · cases h
  · rename_i hm
    cases hm
    split at h
    · cases h
    simp only [resolveAgg, hr, Res.bind_eq_ok] at h
    obtain ⟨as, _, ss, _, g, hg, t, _, h⟩ := h
    split at hg
    · cases hg
    · simp only [Res.bind_eq_ok] at hg
      obtain ⟨r, _, hg⟩ := hg
      cases hg
      cases h
      simp [AggFn.name]

theorem C75_negation : ¬ C75_statement := by
  intro h
  refine h exReg none ⟨3, [], some (.prim .i64 1 0), 3, 1, [], []⟩
    ⟨⟨3, "", [], .prim .i64 1 0⟩, 3, 1, [], []⟩ ?_ rfl
  simp [aggFromProto, EArg.fromProtoList, ESort.fromProtoList, resolveAgg, exReg, typeFromProto,
    primFromProto]

/-- **C75, scalar and window functions.** Their declaration is the registered one, or one made for
the id in the plan. -/
theorem C75_scalar (reg : Reg) (lookup : UInt32 → Option String) (ref : UInt32)
    (f : UInt32 × String) (h : resolveCall reg lookup ref = .ok f) :
    (lookup ref = some f.2 ∧ f.1 = ref) ∨
    (lookup ref = none ∧ ∃ id, reg.decodeFunc ref = some id ∧ reg.custom id = .ok f) := by
  unfold resolveCall at h
  split at h
  · cases h
  · rename_i id hid
    split at h
    · rename_i hl
      exact .inr ⟨hl, id, hid, h⟩
    · rename_i d hl
      cases h
      exact .inl ⟨hl, rfl⟩

end Verif
