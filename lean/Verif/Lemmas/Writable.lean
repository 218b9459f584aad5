import Verif.Spec.Writable
import Verif.Lemmas.ExprProto
import Verif.Lemmas.Aggregate
/-!
# Lemmas for C110: what can be written
-/

namespace Verif

/-- A computation that returns. -/
theorem exists_bind {α β : Type} {x : Res α} {f : α → Res β} :
    (∃ m, (x >>= f) = .ok m) ↔ ∃ a, x = .ok a ∧ ∃ m, f a = .ok m := by
  constructor
  · rintro ⟨m, h⟩
    obtain ⟨a, ha, hm⟩ := Res.bind_eq_ok.1 h
    exact ⟨a, ha, m, hm⟩
  · rintro ⟨a, ha, m, hm⟩
    exact ⟨m, Res.bind_eq_ok.2 ⟨a, ha, hm⟩⟩

theorem exists_ok {α : Type} {a : α} : (∃ m, Res.ok a = .ok m) ↔ True := ⟨fun _ => trivial, fun _ => ⟨a, rfl⟩⟩
theorem exists_panic {α : Type} : (∃ m : α, Res.panic = .ok m) ↔ False :=
  ⟨fun ⟨_, h⟩ => (by cases h), False.elim⟩

mutual
theorem type_writes : ∀ t : Ty, (∃ m, typeToProto t = .ok m) ↔ t.Writable
  | .prim .. => by simp [typeToProto, Ty.Writable]
  | .prec k .. => by cases k <;> simp [typeToProto, Ty.Writable]
  | .intervalCompound p .. => by cases p <;> simp [typeToProto, Ty.Writable]
  | .fixed k .. => by cases k <;> simp [typeToProto, Ty.Writable]
  | .decimal .. => by simp [typeToProto, Ty.Writable]
  | .struct _ _ ts => by
    simp only [typeToProto, Ty.Writable, exists_bind, exists_ok, and_true, types_write ts]
  | .func _ ps r => by
    simp only [typeToProto, Ty.Writable, exists_bind, exists_ok, and_true, exists_and_right, types_write ps,
      type_writes r]
  | .list _ _ t => by
    simp only [typeToProto, Ty.Writable, exists_bind, exists_ok, and_true, type_writes t]
  | .map _ _ k e => by
    simp only [typeToProto, Ty.Writable, exists_bind, exists_ok, and_true, exists_and_right, type_writes k,
      type_writes e]
  | .udt _ _ _ ps => by
    simp only [typeToProto, Ty.Writable, exists_bind, exists_ok, and_true, params_write ps]
  | .intervalYearToMonth .. => by simp [typeToProto, Ty.Writable]
  | .enum .. => by simp [typeToProto, Ty.Writable]
theorem types_write : ∀ ts : List Ty, (∃ m, typesToProto ts = .ok m) ↔ Ty.WritableList ts
  | [] => by simp [typesToProto, Ty.WritableList]
  | t :: ts => by
    simp only [typesToProto, Ty.WritableList, exists_bind, exists_ok, and_true, exists_and_right,
      type_writes t, types_write ts]
theorem param_writes : ∀ p : TParam, (∃ m, paramToProto p = .ok m) ↔ p.Writable
  | .nil => by simp [paramToProto, TParam.Writable]
  | .null => by simp [paramToProto, TParam.Writable]
  | .dataType t => by
    simp only [paramToProto, TParam.Writable, exists_bind, exists_ok, and_true, type_writes t]
  | .boolean _ => by simp [paramToProto, TParam.Writable]
  | .integer _ => by simp [paramToProto, TParam.Writable]
  | .enum _ => by simp [paramToProto, TParam.Writable]
  | .string _ => by simp [paramToProto, TParam.Writable]
theorem params_write : ∀ ps : List TParam, (∃ m, paramsToProto ps = .ok m) ↔ TParam.WritableList ps
  | [] => by simp [paramsToProto, TParam.WritableList]
  | p :: ps => by
    simp only [paramsToProto, TParam.WritableList, exists_bind, exists_ok, and_true, exists_and_right,
      param_writes p, params_write ps]
end

theorem mapL_writes {α β : Type} {f : α → Res β} {P : α → Prop} (h : ∀ a, (∃ m, f a = .ok m) ↔ P a) :
    ∀ xs : List α, (∃ m, Res.mapL f xs = .ok m) ↔ ∀ x ∈ xs, P x
  | [] => by simp [Res.mapL_nil]
  | x :: xs => by
    simp only [Res.mapL_cons, exists_bind, exists_ok, and_true, exists_and_right, h, mapL_writes h xs,
      List.mem_cons, forall_eq_or_imp]

theorem writableList_iff : ∀ ts : List Ty, Ty.WritableList ts ↔ ∀ t ∈ ts, t.Writable
  | [] => by simp [Ty.WritableList]
  | t :: ts => by simp [Ty.WritableList, writableList_iff ts]

theorem mapL_types (ts : List Ty) : (∃ m, Res.mapL typeToProto ts = .ok m) ↔ Ty.WritableList ts := by
  rw [mapL_writes type_writes, writableList_iff]

theorem typeArg_writes (t : Ty) : (∃ m, typeArgToProto t = .ok m) ↔ t.WritableArg := by
  cases t <;> simp only [typeArgToProto, Ty.WritableArg, type_writes] <;>
    simp [typeToProto, Ty.Writable]

theorem protoLit_writes (t : Ty) (v : ProtoVal) : (∃ m, protoLitKind t v = .ok m) ↔ v.KindOf t := by
  have hu : ∀ n w r ps, (∃ m, protoLitKind (.udt n w r ps) v = .ok m) ↔ v.KindOf (.udt n w r ps) := by
    intro n w r ps
    cases v with
    | udt x =>
      cases x <;>
        simp [protoLitKind, ProtoVal.KindOf, exists_bind, exists_ok, exists_panic, params_write]
    | _ => simp [protoLitKind, ProtoVal.KindOf, exists_bind, exists_ok, exists_panic]
  cases t with
  | udt n w r ps => exact hu n w r ps
  | prim k n w => cases k <;> cases v <;> simp [protoLitKind, ProtoVal.KindOf]
  | prec k n w p => cases k <;> cases v <;> simp [protoLitKind, ProtoVal.KindOf]
  | fixed k n w p => cases k <;> cases v <;> simp [protoLitKind, ProtoVal.KindOf]
  | decimal => cases v <;> simp [protoLitKind, ProtoVal.KindOf]
  | _ => simp [protoLitKind, ProtoVal.KindOf]

theorem literals_nil {vs : List Lit} {ms : List PLit} (h : literalsToProto vs = .ok ms) :
    vs = [] ↔ ms = [] := by
  cases vs with
  | nil => simp only [literalsToProto] at h; cases h; simp
  | cons v vs =>
    simp only [literalsToProto, Res.bind_eq_ok] at h
    obtain ⟨_, _, _, _, h⟩ := h
    cases h; simp

mutual
theorem literal_writes : ∀ l : Lit, (∃ m, literalToProto l = .ok m) ↔ l.Writable
  | .nil => by simp [literalToProto, Lit.Writable]
  | .null t => by simp only [literalToProto, Lit.Writable, exists_bind, exists_ok, and_true, type_writes]
  | .prim v t => by
    cases v <;> simp [literalToProto, Lit.Writable, primLitKind]
  | .bytes .. => by simp [literalToProto, Lit.Writable]
  | .struct fs t => by
    simp only [literalToProto, Lit.Writable, exists_bind, exists_ok, and_true, literals_write fs]
  | .list vs t => by
    simp only [literalToProto, Lit.Writable, exists_bind, ← literals_write vs]
    constructor
    · rintro ⟨ms, h, h2⟩
      refine ⟨⟨ms, h⟩, fun hv => ?_⟩
      have := (literals_nil h).1 hv
      subst this
      simp only [exists_bind, exists_ok, and_true, type_writes] at h2
      exact h2
    · rintro ⟨⟨ms, h⟩, h2⟩
      refine ⟨ms, h, ?_⟩
      cases ms with
      | nil =>
        simp only [exists_bind, exists_ok, and_true, type_writes]
        exact h2 ((literals_nil h).2 rfl)
      | cons => exact ⟨_, rfl⟩
  | .map [] t => by
    simp only [literalToProto, Lit.Writable, KeyValue.WritableList, exists_bind, exists_ok, and_true,
      type_writes, true_and, forall_const]
  | .map (kv :: kvs) t => by
    simp only [literalToProto, Lit.Writable, exists_bind, exists_ok, and_true,
      keyValues_write (kv :: kvs), reduceCtorEq, false_imp_iff]
  | .proto v t => by
    simp only [literalToProto, Lit.Writable, exists_bind, exists_ok, and_true, protoLit_writes]
  | .intervalYearToMonth .. => by simp [literalToProto, Lit.Writable]
  | .intervalCompound .. => by simp [literalToProto, Lit.Writable]
theorem literals_write : ∀ ls : List Lit, (∃ m, literalsToProto ls = .ok m) ↔ Lit.WritableList ls
  | [] => by simp [literalsToProto, Lit.WritableList]
  | l :: ls => by
    simp only [literalsToProto, Lit.WritableList, exists_bind, exists_ok, and_true, exists_and_right,
      literal_writes l, literals_write ls]
theorem keyValues_write : ∀ ls : List KeyValue,
    (∃ m, keyValuesToProto ls = .ok m) ↔ KeyValue.WritableList ls
  | [] => by simp [keyValuesToProto, KeyValue.WritableList]
  | .mk k v :: ls => by
    simp only [keyValuesToProto, KeyValue.WritableList, exists_bind, exists_ok, and_true, exists_and_right,
      literal_writes k, literal_writes v, keyValues_write ls]
end

theorem segChild_writes : ∀ s : Seg, (∃ m, segChildToProto s = .ok m) ↔ s.KeysWritable
  | .nil => by simp [segChildToProto, Seg.KeysWritable]
  | .mapKey k c => by
    simp only [segChildToProto, Seg.KeysWritable, exists_bind, exists_ok, and_true, exists_and_right,
      segChild_writes c, literal_writes]
    exact and_comm
  | .structField f c => by
    simp only [segChildToProto, Seg.KeysWritable, exists_bind, exists_ok, and_true, segChild_writes c]
  | .listElement f c => by
    simp only [segChildToProto, Seg.KeysWritable, exists_bind, exists_ok, and_true, segChild_writes c]

theorem ref_writes (reg : Reg) (r : ERef) : (∃ m, refToProto reg r = .ok m) ↔ r.Writable := by
  cases r with
  | nil => simp [refToProto, ERef.Writable]
  | mask a => simp [refToProto, ERef.Writable]
  | seg s =>
    simp only [refToProto, ERef.Writable, exists_bind, exists_ok, and_true]
    cases s with
    | nil => simp [segToProto]
    | mapKey k c => rw [← segChild_writes]; simp [segToProto, segChildToProto]
    | structField f c => rw [← segChild_writes]; simp [segToProto, segChildToProto]
    | listElement f c => rw [← segChild_writes]; simp [segToProto, segChildToProto]

variable (reg : Reg)

mutual
theorem expr_writes : ∀ e : Expr, (∃ m, e.toProto reg = .ok m) ↔ e.Writable reg
  | .nil => by simp [Expr.toProto, Expr.Writable]
  | .lit l => by simp only [Expr.toProto, Expr.Writable, exists_bind, exists_ok, and_true, literal_writes]
  | .fieldRef root ref k => by
    simp only [Expr.toProto, Expr.Writable, exists_bind, exists_ok, and_true, exists_and_right, ref_writes,
      root_writes root]
  | .ifThen ifs els => by
    simp only [Expr.toProto, Expr.Writable, exists_bind, exists_ok, and_true, exists_and_right,
      pairs_write ifs, opt_writes els]
  | .cast ty input f => by
    simp only [Expr.toProto, Expr.Writable, exists_bind, exists_ok, and_true, exists_and_right, type_writes,
      expr_writes input]
  | .dynParam ty r => by
    simp only [Expr.toProto, Expr.Writable, exists_bind, exists_ok, and_true, type_writes]
  | .switch m cs els => by
    simp only [Expr.toProto, Expr.Writable, exists_bind, exists_ok, and_true, exists_and_right,
      expr_writes m, cases_write cs, opt_writes els]
    tauto
  | .singularOr v os => by
    simp only [Expr.toProto, Expr.Writable, exists_bind, exists_ok, and_true, exists_and_right,
      expr_writes v, exprs_write os]
    tauto
  | .multiOr v os => by
    simp only [Expr.toProto, Expr.Writable, exists_bind, exists_ok, and_true, exists_and_right,
      exprs_write v, rows_write os]
    tauto
  | .mapE _ _ kvs => by
    simp only [Expr.toProto, Expr.Writable, exists_bind, exists_ok, and_true, pairs_write kvs]
  | .structE _ _ fs => by
    simp only [Expr.toProto, Expr.Writable, exists_bind, exists_ok, and_true, exprs_write fs]
  | .listE _ _ vs => by
    simp only [Expr.toProto, Expr.Writable, exists_bind, exists_ok, and_true, exprs_write vs]
  | .scalar a args => by
    simp only [Expr.toProto, Expr.Writable, exists_bind, exists_ok, and_true, exists_and_right, type_writes,
      args_write args]
    tauto
  | .window a w args ss ps => by
    simp only [Expr.toProto, Expr.Writable, exists_bind, exists_ok, and_true, exists_and_right, type_writes,
      args_write args, sorts_write ss, exprs_write ps]
    tauto
  | .lambda _ _ ps b => by
    simp only [Expr.toProto, Expr.Writable, exists_bind, exists_ok, and_true, exists_and_right, mapL_types,
      expr_writes b]
  | .scalarSubquery r => by
    simp only [Expr.toProto, Expr.Writable, exists_bind, exists_ok, and_true, RelRef.Writable]
  | .inPredicate ns r => by
    simp only [Expr.toProto, Expr.Writable, exists_bind, exists_ok, and_true, exists_and_right,
      exprs_write ns, RelRef.Writable]
  | .setPredicate _ r => by
    simp only [Expr.toProto, Expr.Writable, exists_bind, exists_ok, and_true, RelRef.Writable]
  | .setComparison _ _ l r => by
    cases r with
    | none =>
      simp only [Expr.toProto, Expr.Writable, exists_bind, exists_panic, and_false, exists_false,
        reduceCtorEq, false_and]
    | some r =>
      simp only [Expr.toProto, Expr.Writable, exists_bind, exists_ok, and_true, exists_and_right,
        expr_writes l, RelRef.Writable, Option.some.injEq, exists_eq_left']
theorem opt_writes : ∀ e : Expr, (∃ m, e.optToProto reg = .ok m) ↔ e.WritableOpt reg
  | .nil => by simp [Expr.optToProto, Expr.WritableOpt]
  | .lit a => by simp only [Expr.optToProto, Expr.WritableOpt, expr_writes (.lit a)]
  | .fieldRef a b c => by simp only [Expr.optToProto, Expr.WritableOpt, expr_writes (.fieldRef a b c)]
  | .ifThen a b => by simp only [Expr.optToProto, Expr.WritableOpt, expr_writes (.ifThen a b)]
  | .cast a b c => by simp only [Expr.optToProto, Expr.WritableOpt, expr_writes (.cast a b c)]
  | .dynParam a b => by simp only [Expr.optToProto, Expr.WritableOpt, expr_writes (.dynParam a b)]
  | .switch a b c => by simp only [Expr.optToProto, Expr.WritableOpt, expr_writes (.switch a b c)]
  | .singularOr a b => by simp only [Expr.optToProto, Expr.WritableOpt, expr_writes (.singularOr a b)]
  | .multiOr a b => by simp only [Expr.optToProto, Expr.WritableOpt, expr_writes (.multiOr a b)]
  | .mapE a b c => by simp only [Expr.optToProto, Expr.WritableOpt, expr_writes (.mapE a b c)]
  | .structE a b c => by simp only [Expr.optToProto, Expr.WritableOpt, expr_writes (.structE a b c)]
  | .listE a b c => by simp only [Expr.optToProto, Expr.WritableOpt, expr_writes (.listE a b c)]
  | .scalar a b => by simp only [Expr.optToProto, Expr.WritableOpt, expr_writes (.scalar a b)]
  | .window a b c d e => by simp only [Expr.optToProto, Expr.WritableOpt, expr_writes (.window a b c d e)]
  | .lambda a b c d => by simp only [Expr.optToProto, Expr.WritableOpt, expr_writes (.lambda a b c d)]
  | .scalarSubquery a => by simp only [Expr.optToProto, Expr.WritableOpt, expr_writes (.scalarSubquery a)]
  | .inPredicate a b => by simp only [Expr.optToProto, Expr.WritableOpt, expr_writes (.inPredicate a b)]
  | .setPredicate a b => by simp only [Expr.optToProto, Expr.WritableOpt, expr_writes (.setPredicate a b)]
  | .setComparison a b c d => by
    simp only [Expr.optToProto, Expr.WritableOpt, expr_writes (.setComparison a b c d)]
theorem exprs_write : ∀ es : List Expr, (∃ m, Expr.toProtoList reg es = .ok m) ↔ Expr.WritableList reg es
  | [] => by simp [Expr.toProtoList, Expr.WritableList]
  | e :: es => by
    simp only [Expr.toProtoList, Expr.WritableList, exists_bind, exists_ok, and_true, exists_and_right,
      expr_writes e, exprs_write es]
theorem pairs_write : ∀ es : List EPair, (∃ m, EPair.toProtoList reg es = .ok m) ↔ EPair.WritableList reg es
  | [] => by simp [EPair.toProtoList, EPair.WritableList]
  | .mk a b :: es => by
    simp only [EPair.toProtoList, EPair.WritableList, exists_bind, exists_ok, and_true, exists_and_right,
      expr_writes a, expr_writes b, pairs_write es]
theorem cases_write : ∀ es : List ECase, (∃ m, ECase.toProtoList reg es = .ok m) ↔ ECase.WritableList reg es
  | [] => by simp [ECase.toProtoList, ECase.WritableList]
  | .mk l e :: es => by
    simp only [ECase.toProtoList, ECase.WritableList, exists_bind, exists_ok, and_true, exists_and_right,
      literal_writes, expr_writes e, cases_write es]
theorem rows_write : ∀ es : List ERow, (∃ m, ERow.toProtoList reg es = .ok m) ↔ ERow.WritableList reg es
  | [] => by simp [ERow.toProtoList, ERow.WritableList]
  | .mk a :: es => by
    simp only [ERow.toProtoList, ERow.WritableList, exists_bind, exists_ok, and_true, exists_and_right,
      exprs_write a, rows_write es]
theorem root_writes : ∀ r : ERoot, (∃ m, r.toProto reg = .ok m) ↔ r.Writable reg
  | .rootReference => by simp [ERoot.toProto, ERoot.Writable]
  | .outer _ => by simp [ERoot.toProto, ERoot.Writable]
  | .lambdaParam _ => by simp [ERoot.toProto, ERoot.Writable]
  | .expr .nil => by simp [ERoot.toProto, ERoot.Writable, Expr.WritableOpt]
  | .expr e => by
    rw [ERoot.Writable, ← opt_writes e]
    cases e <;> simp only [ERoot.toProto, Expr.optToProto, exists_bind, exists_ok, and_true]
theorem arg_writes : ∀ a : EArg, (∃ m, a.toProto reg = .ok m) ↔ a.Writable reg
  | .nil => by simp [EArg.toProto, EArg.Writable]
  | .expr e => by
    simp only [EArg.toProto, EArg.Writable, exists_bind, exists_ok, and_true, expr_writes e]
  | .type t => by
    simp only [EArg.toProto, EArg.Writable, exists_bind, exists_ok, and_true, typeArg_writes]
  | .enum _ => by simp [EArg.toProto, EArg.Writable]
theorem args_write : ∀ es : List EArg, (∃ m, EArg.toProtoList reg es = .ok m) ↔ EArg.WritableList reg es
  | [] => by simp [EArg.toProtoList, EArg.WritableList]
  | a :: es => by
    simp only [EArg.toProtoList, EArg.WritableList, exists_bind, exists_ok, and_true, exists_and_right,
      arg_writes a, args_write es]
theorem sorts_write : ∀ es : List ESort, (∃ m, ESort.toProtoList reg es = .ok m) ↔ ESort.WritableList reg es
  | [] => by simp [ESort.toProtoList, ESort.WritableList]
  | .mk e k :: es => by
    simp only [ESort.toProtoList, ESort.WritableList, exists_bind, exists_ok, and_true, exists_and_right,
      expr_writes e, sorts_write es]
end

theorem namedStruct_writes (s : NamedStruct) : (∃ m, s.toMsg = .ok m) ↔ Ty.WritableList s.types := by
  simp only [NamedStruct.toMsg, exists_bind, exists_ok, and_true, mapL_types]

theorem readKind_writes (k : ReadKind) : (∃ m, k.toMsg reg = .ok m) ↔ k.Writable reg := by
  cases k <;> simp only [ReadKind.toMsg, ReadKind.Writable, exists_bind, exists_ok, and_true,
    mapL_writes (exprs_write reg)]

theorem measure_writes (m : Measure) : (∃ x, m.toMsg reg = .ok x) ↔ m.Writable reg := by
  obtain ⟨f, e⟩ := m
  cases f with
  | none => simp [Measure.toMsg, Measure.Writable]
  | some f =>
    simp only [Measure.toMsg, Measure.Writable, AggFn.toMsg, exists_bind, exists_ok, and_true,
      exists_and_right, args_write, sorts_write, type_writes, opt_writes, Option.some.injEq,
      exists_eq_left']
    tauto

theorem fieldRef_writes (e : Expr) : (∃ m, fieldRefToMsg reg e = .ok m) ↔ e.RefWritable reg := by
  cases e with
  | fieldRef root ref known =>
    simp only [fieldRefToMsg, Expr.RefWritable, exists_bind, exists_ok, and_true, exists_and_right,
      ref_writes, root_writes]
    constructor
    · rintro ⟨h1, h2⟩; exact ⟨_, _, ⟨_, rfl⟩, h1, h2⟩
    · rintro ⟨a, b, ⟨c, h⟩, h1, h2⟩; cases h; exact ⟨h1, h2⟩
  | _ => simp [fieldRefToMsg, Expr.RefWritable]

theorem key_writes (k : JoinKey) : (∃ m, k.toMsg reg = .ok m) ↔ k.Writable reg := by
  have hc : (∃ m, k.comparison.toMsg = .ok m) ↔ k.comparison ≠ .nil := by
    cases k.comparison <;> simp [KeyComparison.toMsg]
  simp only [JoinKey.toMsg, JoinKey.Writable, exists_bind, exists_ok, and_true, exists_and_right,
    fieldRef_writes, hc]

theorem legacy_writes (ks : List JoinKey) (h : ∀ k ∈ ks, k.Writable reg) :
    ∃ m, legacyKeys reg ks = .ok m := by
  unfold legacyKeys
  split
  · simp only [exists_bind, exists_ok, and_true]
    rw [mapL_writes (P := fun k : JoinKey => k.left.RefWritable reg ∧ k.right.RefWritable reg)]
    · exact fun k hk => ⟨(h k hk).1, (h k hk).2.1⟩
    · intro k
      simp only [exists_bind, exists_ok, and_true, exists_and_right, fieldRef_writes]
  · exact ⟨_, rfl⟩

mutual
theorem rel_writes : ∀ r : Rel, (∃ m, r.toProto reg = .ok m) ↔ r.Writable reg
  | .read c b k => by
    simp only [Rel.toProto, Rel.Writable, exists_bind, exists_ok, and_true, exists_and_right,
      namedStruct_writes, opt_writes, readKind_writes]
  | .project c i es a => by
    simp only [Rel.toProto, Rel.Writable, exists_bind, exists_ok, and_true, exists_and_right,
      exprs_write, rel_writes i]
    tauto
  | .join c l r e p t a => by
    simp only [Rel.toProto, Rel.Writable, exists_bind, exists_ok, and_true, exists_and_right,
      expr_writes, opt_writes, rel_writes l, rel_writes r]
  | .cross c l r a => by
    simp only [Rel.toProto, Rel.Writable, exists_bind, exists_ok, and_true, exists_and_right,
      rel_writes l, rel_writes r]
  | .fetch c i o n a => by
    simp only [Rel.toProto, Rel.Writable, exists_bind, exists_ok, and_true, rel_writes i]
  | .aggregate c i ms es refs a => by
    simp only [Rel.toProto, Rel.Writable, exists_bind, exists_ok, and_true, exists_and_right,
      exprs_write, mapL_writes (measure_writes reg), rel_writes i]
    tauto
  | .sort c i ss a => by
    simp only [Rel.toProto, Rel.Writable, exists_bind, exists_ok, and_true, exists_and_right,
      sorts_write, rel_writes i]
    tauto
  | .filter c i e a => by
    simp only [Rel.toProto, Rel.Writable, exists_bind, exists_ok, and_true, exists_and_right,
      expr_writes, rel_writes i]
  | .set c is o a => by
    simp only [Rel.toProto, Rel.Writable, exists_bind, exists_ok, and_true, rels_write is]
  | .extSingle c i d => by
    simp only [Rel.toProto, Rel.Writable, exists_bind, exists_ok, and_true, rel_writes i]
  | .extLeaf c d => by simp [Rel.toProto, Rel.Writable]
  | .extMulti c is d => by
    simp only [Rel.toProto, Rel.Writable, exists_bind, exists_ok, and_true, rels_write is]
  | .hashJoin c l r ks p t a => by
    simp only [Rel.toProto, Rel.Writable, exists_bind, exists_ok, and_true, exists_and_right,
      rel_writes l, rel_writes r, mapL_writes (key_writes reg), opt_writes]
    exact ⟨fun ⟨a, b, c, _, e⟩ => ⟨a, b, c, e⟩,
      fun ⟨a, b, c, e⟩ => ⟨a, b, c, legacy_writes reg ks c, e⟩⟩
  | .mergeJoin c l r ks p t a => by
    simp only [Rel.toProto, Rel.Writable, exists_bind, exists_ok, and_true, exists_and_right,
      rel_writes l, rel_writes r, mapL_writes (key_writes reg), opt_writes]
    exact ⟨fun ⟨a, b, c, _, e⟩ => ⟨a, b, c, e⟩,
      fun ⟨a, b, c, e⟩ => ⟨a, b, c, legacy_writes reg ks c, e⟩⟩
  | .write c ns a s o i m => by
    simp only [Rel.toProto, Rel.Writable, exists_bind, exists_ok, and_true, exists_and_right,
      namedStruct_writes, rel_writes i]
theorem rels_write : ∀ rs : List Rel, (∃ m, Rel.toProtoList reg rs = .ok m) ↔ Rel.WritableList reg rs
  | [] => by simp [Rel.toProtoList, Rel.WritableList]
  | r :: rs => by
    simp only [Rel.toProtoList, Rel.WritableList, exists_bind, exists_ok, and_true, exists_and_right,
      rel_writes r, rels_write rs]
end

theorem relation_writes (r : Relation) :
    (∃ m, Relation.toProto (Rel.toProto reg) r = .ok m) ↔ r.Writable reg := by
  obtain ⟨root, rel⟩ := r
  cases root with
  | some x =>
    simp only [Relation.toProto, Relation.Writable, exists_bind, exists_ok, and_true, rel_writes]
  | none =>
    cases rel with
    | none => simp [Relation.toProto, Relation.Writable]
    | some x =>
      simp only [Relation.toProto, Relation.Writable, exists_bind, exists_ok, and_true, rel_writes,
        Option.some.injEq, exists_eq_left']

theorem plan_writes (p : Plan) : (∃ m, p.toProto (Rel.toProto reg) = .ok m) ↔ p.Writable reg := by
  simp only [Plan.toProto, Plan.Writable, exists_bind, exists_ok, and_true, exists_and_right,
    mapL_writes (relation_writes reg)]
  rw [mapL_writes (P := fun b : Binding => b.value.Writable)]
  intro b
  simp only [exists_bind, exists_ok, and_true, literal_writes]

end Verif
