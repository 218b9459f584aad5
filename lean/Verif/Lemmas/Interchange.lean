import Verif.Spec.Interchange
import Verif.Lemmas.ExprProto
import Verif.Lemmas.Expr
/-!
# Lemmas: what does not depend on the details `Equals` ignores
-/

namespace Verif

theorem zero32_cases {b : UInt32} (h : zero32 b = true) : b = 0 ∨ b = 0x80000000 := by
  simp only [zero32, beq_iff_eq] at h
  have h1 := congrArg UInt32.toNat h
  rw [UInt32.toNat_and] at h1
  have h2 : (0x7fffffff : UInt32).toNat = 2 ^ 31 - 1 := rfl
  rw [h2, Nat.and_two_pow_sub_one_eq_mod] at h1
  have h3 : b.toNat < 2 ^ 32 := b.toNat_lt
  have h4 : b.toNat % 2 ^ 31 = 0 := h1
  rcases (by omega : b.toNat = 0 ∨ b.toNat = 2 ^ 31) with h | h
  · exact .inl (UInt32.toNat_inj.1 h)
  · exact .inr (UInt32.toNat_inj.1 h)
theorem zero64_cases {b : UInt64} (h : zero64 b = true) : b = 0 ∨ b = 0x8000000000000000 := by
  simp only [zero64, beq_iff_eq] at h
  have h1 := congrArg UInt64.toNat h
  rw [UInt64.toNat_and] at h1
  have h2 : (0x7fffffffffffffff : UInt64).toNat = 2 ^ 63 - 1 := rfl
  rw [h2, Nat.and_two_pow_sub_one_eq_mod] at h1
  have h3 : b.toNat < 2 ^ 64 := b.toNat_lt
  have h4 : b.toNat % 2 ^ 63 = 0 := h1
  rcases (by omega : b.toNat = 0 ∨ b.toNat = 2 ^ 63) with h | h
  · exact .inl (UInt64.toNat_inj.1 h)
  · exact .inr (UInt64.toNat_inj.1 h)

theorem settled_pval : ∀ {v : PVal}, v.NoMinusZero → v.canon = v := by
  intro v h
  cases v with
  | float32 b =>
      simp only [PVal.canon]
      split
      · rename_i hz
        rcases zero32_cases hz with rfl | rfl
        · rfl
        · exact absurd rfl h
      · rfl
  | float64 b =>
      simp only [PVal.canon]
      split
      · rename_i hz
        rcases zero64_cases hz with rfl | rfl
        · rfl
        · exact absurd rfl h
      · rfl
  | _ => rfl

mutual
theorem settled_lit : ∀ l : Lit, l.Settled → l.canon = l
  | .nil, _ => rfl
  | .null t, h => by
      simp only [Lit.Settled] at h
      simp [Lit.canon, noCompound_erase t h]
  | .prim v t, h => by
      simp only [Lit.Settled] at h
      simp [Lit.canon, noCompound_erase t h.2, settled_pval h.1]
  | .bytes _ _ t, h => by
      simp only [Lit.Settled] at h
      simp [Lit.canon, noCompound_erase t h]
  | .struct fs t, h => by
      simp only [Lit.Settled] at h
      simp [Lit.canon, noCompound_erase t h.2, settled_lits fs h.1]
  | .list fs t, h => by
      simp only [Lit.Settled] at h
      simp [Lit.canon, noCompound_erase t h.2, settled_lits fs h.1]
  | .map kvs t, h => by
      simp only [Lit.Settled] at h
      simp [Lit.canon, noCompound_erase t h.2, settled_kvs kvs h.1]
  | .proto _ t, h => by
      simp only [Lit.Settled] at h
      simp [Lit.canon, noCompound_erase t h]
  | .intervalYearToMonth .., _ => rfl
  | .intervalCompound .., _ => rfl
theorem settled_lits : ∀ ls : List Lit, Lit.SettledList ls → Lit.canonList ls = ls
  | [], _ => rfl
  | l :: ls, h => by
      simp only [Lit.SettledList] at h
      simp [Lit.canonList, settled_lit l h.1, settled_lits ls h.2]
theorem settled_kvs : ∀ ls : List KeyValue, KeyValue.SettledList ls → KeyValue.canonList ls = ls
  | [], _ => rfl
  | .mk k v :: ls, h => by
      simp only [KeyValue.SettledList] at h
      simp [KeyValue.canonList, settled_lit k h.1, settled_lit v h.2.1, settled_kvs ls h.2.2]
end

theorem settled_seg : ∀ s : Seg, s.Settled → s.canon = s
  | .nil, _ => rfl
  | .mapKey k c, h => by
      simp only [Seg.Settled] at h
      simp [Seg.canon, settled_lit k h.1, settled_seg c h.2]
  | .structField _ c, h => by
      simp only [Seg.Settled] at h
      simp [Seg.canon, settled_seg c h]
  | .listElement _ c, h => by
      simp only [Seg.Settled] at h
      simp [Seg.canon, settled_seg c h]

theorem settled_ref {r : ERef} (h : r.Settled) : r.canon = r := by
  cases r <;> simp [ERef.canon]
  exact settled_seg _ h

theorem settled_rel {g : Settings} {r r' : RelRef} (h : r.Settled g) (h' : r'.Settled g)
    (he : r.canon = r'.canon) : r = r' := by
  cases r; cases r'
  simp only [RelRef.canon, RelRef.mk.injEq, and_true] at he
  subst he
  simp only [RelRef.Settled] at h h'
  simp [h, h']

theorem settled_rel? {g : Settings} {r r' : Option RelRef} (h : ∀ x ∈ r, RelRef.Settled g x)
    (h' : ∀ x ∈ r', RelRef.Settled g x) (he : r.map RelRef.canon = r'.map RelRef.canon) : r = r' := by
  cases r <;> cases r' <;> simp at he
  · rfl
  · rw [settled_rel (h _ rfl) (h' _ rfl) he]

theorem settled_ty {t t' : Ty} (h : t.NoCompound) (h' : t'.NoCompound) (he : t.erase = t'.erase) :
    t = t' := by
  rw [← noCompound_erase t h, he, noCompound_erase t' h']

theorem settled_tys {t t' : List Ty} (h : Ty.NoCompoundList t) (h' : Ty.NoCompoundList t')
    (he : Ty.eraseList t = Ty.eraseList t') : t = t' := by
  rw [← noCompound_eraseList t h, he, noCompound_eraseList t' h']

theorem canon_isNil (e : Expr) : e.canon.isNil = e.isNil := by
  cases e <;> simp [Expr.canon, Expr.isNil]

theorem isNil_of_canon {a b : Expr} (h : a.canon = b.canon) : a.isNil = b.isNil := by
  rw [← canon_isNil a, h, canon_isNil]

theorem optToProto_congr {reg : Reg} {a b : Expr} (hn : a.isNil = b.isNil)
    (h : a.toProto reg = b.toProto reg) : Expr.optToProto reg a = Expr.optToProto reg b := by
  cases a <;> cases b <;> simp_all [Expr.optToProto, Expr.isNil]

theorem rootToProto_congr {reg : Reg} {a b : Expr} (hn : a.isNil = b.isNil)
    (h : a.toProto reg = b.toProto reg) :
    ERoot.toProto reg (.expr a) = ERoot.toProto reg (.expr b) := by
  cases a <;> cases b <;> simp_all [ERoot.toProto, Expr.isNil]

/-! ## Messages -/

mutual
theorem wire_expr (reg : Reg) (g : Settings) : ∀ a b : Expr, a.Settled g → b.Settled g →
    a.canon = b.canon → a.toProto reg = b.toProto reg
  | .nil, b, _, _, h => by
      cases b <;> simp only [Expr.canon, reduceCtorEq] at h
      rfl
  | .lit l, b, ha, hb, h => by
      cases b <;> simp only [Expr.canon, reduceCtorEq, Expr.lit.injEq] at h
      simp only [Expr.Settled] at ha hb
      rw [settled_lit _ ha, settled_lit _ hb] at h
      rw [h]
  | .fieldRef root ref k, b, ha, hb, h => by
      cases b <;> simp only [Expr.canon, reduceCtorEq, Expr.fieldRef.injEq] at h
      simp only [Expr.Settled] at ha hb
      rw [settled_ref ha.2, settled_ref hb.2] at h
      simp only [Expr.toProto, h.2.1, wire_root reg g root _ ha.1 hb.1 h.1]
  | .ifThen ifs els, b, ha, hb, h => by
      cases b <;> simp only [Expr.canon, reduceCtorEq, Expr.ifThen.injEq] at h
      simp only [Expr.Settled] at ha hb
      simp only [Expr.toProto, wire_pairs reg g ifs _ ha.1 hb.1 h.1,
        optToProto_congr (isNil_of_canon h.2) (wire_expr reg g els _ ha.2 hb.2 h.2)]
  | .cast ty e f, b, ha, hb, h => by
      cases b <;> simp only [Expr.canon, reduceCtorEq, Expr.cast.injEq] at h
      simp only [Expr.Settled] at ha hb
      simp only [Expr.toProto, settled_ty ha.1 hb.1 h.1, wire_expr reg g e _ ha.2 hb.2 h.2.1, h.2.2]
  | .dynParam ty r, b, ha, hb, h => by
      cases b <;> simp only [Expr.canon, reduceCtorEq, Expr.dynParam.injEq] at h
      simp only [Expr.Settled] at ha hb
      simp only [Expr.toProto, settled_ty ha hb h.1, h.2]
  | .switch m ifs els, b, ha, hb, h => by
      cases b <;> simp only [Expr.canon, reduceCtorEq, Expr.switch.injEq] at h
      simp only [Expr.Settled] at ha hb
      simp only [Expr.toProto, wire_expr reg g m _ ha.1 hb.1 h.1,
        wire_cases reg g ifs _ ha.2.1 hb.2.1 h.2.1,
        optToProto_congr (isNil_of_canon h.2.2) (wire_expr reg g els _ ha.2.2 hb.2.2 h.2.2)]
  | .singularOr v os, b, ha, hb, h => by
      cases b <;> simp only [Expr.canon, reduceCtorEq, Expr.singularOr.injEq] at h
      simp only [Expr.Settled] at ha hb
      simp only [Expr.toProto, wire_expr reg g v _ ha.1 hb.1 h.1, wire_list reg g os _ ha.2 hb.2 h.2]
  | .multiOr vs os, b, ha, hb, h => by
      cases b <;> simp only [Expr.canon, reduceCtorEq, Expr.multiOr.injEq] at h
      simp only [Expr.Settled] at ha hb
      simp only [Expr.toProto, wire_list reg g vs _ ha.1 hb.1 h.1, wire_rows reg g os _ ha.2 hb.2 h.2]
  | .mapE n v kvs, b, ha, hb, h => by
      cases b <;> simp only [Expr.canon, reduceCtorEq, Expr.mapE.injEq] at h
      simp only [Expr.Settled] at ha hb
      simp only [Expr.toProto, wire_pairs reg g kvs _ ha hb h.2.2, h.1, h.2.1]
  | .structE n v fs, b, ha, hb, h => by
      cases b <;> simp only [Expr.canon, reduceCtorEq, Expr.structE.injEq] at h
      simp only [Expr.Settled] at ha hb
      simp only [Expr.toProto, wire_list reg g fs _ ha hb h.2.2, h.1, h.2.1]
  | .listE n v fs, b, ha, hb, h => by
      cases b <;> simp only [Expr.canon, reduceCtorEq, Expr.listE.injEq] at h
      simp only [Expr.Settled] at ha hb
      simp only [Expr.toProto, wire_list reg g fs _ ha hb h.2.2, h.1, h.2.1]
  | .scalar a args, b, ha, hb, h => by
      cases b <;> simp only [Expr.canon, reduceCtorEq, Expr.scalar.injEq, FnAttrs.canon,
        FnAttrs.mk.injEq] at h
      simp only [Expr.Settled] at ha hb
      obtain ⟨⟨h1, -, h3, h4⟩, h5⟩ := h
      simp only [Expr.toProto, wire_args reg g args _ ha.2 hb.2 h5, h1, h3, settled_ty ha.1 hb.1 h4]
  | .window a w args ss ps, b, ha, hb, h => by
      cases b <;> simp only [Expr.canon, reduceCtorEq, Expr.window.injEq, FnAttrs.canon,
        FnAttrs.mk.injEq, WinAttrs.canon, WinAttrs.mk.injEq] at h
      simp only [Expr.Settled] at ha hb
      obtain ⟨⟨h1, -, h3, h4⟩, ⟨w1, w2, -, w4, w5⟩, h5, h6, h7⟩ := h
      simp only [Expr.toProto, wire_args reg g args _ ha.2.2.1 hb.2.2.1 h5,
        wire_sorts reg g ss _ ha.2.2.2.1 hb.2.2.2.1 h6, wire_list reg g ps _ ha.2.2.2.2 hb.2.2.2.2 h7,
        h1, h3, settled_ty ha.1 hb.1 h4, WinAttrs.toMsg, w1, w2, w4, w5, ha.2.1, hb.2.1]
  | .lambda n v ps body, b, ha, hb, h => by
      cases b <;> simp only [Expr.canon, reduceCtorEq, Expr.lambda.injEq] at h
      simp only [Expr.Settled] at ha hb
      simp only [Expr.toProto, settled_tys ha.1 hb.1 h.2.2.1, wire_expr reg g body _ ha.2 hb.2 h.2.2.2,
        h.1, h.2.1]
  | .scalarSubquery r, b, ha, hb, h => by
      cases b <;> simp only [Expr.canon, reduceCtorEq, Expr.scalarSubquery.injEq] at h
      simp only [Expr.Settled] at ha hb
      rw [settled_rel ha hb h]
  | .inPredicate ns r, b, ha, hb, h => by
      cases b <;> simp only [Expr.canon, reduceCtorEq, Expr.inPredicate.injEq] at h
      simp only [Expr.Settled] at ha hb
      simp only [Expr.toProto, wire_list reg g ns _ ha.1 hb.1 h.1, settled_rel ha.2 hb.2 h.2]
  | .setPredicate op r, b, ha, hb, h => by
      cases b <;> simp only [Expr.canon, reduceCtorEq, Expr.setPredicate.injEq] at h
      simp only [Expr.Settled] at ha hb
      rw [settled_rel ha hb h.2, h.1]
  | .setComparison x y l r, b, ha, hb, h => by
      cases b <;> simp only [Expr.canon, reduceCtorEq, Expr.setComparison.injEq] at h
      simp only [Expr.Settled] at ha hb
      simp only [Expr.toProto, h.1, h.2.1, wire_expr reg g l _ ha.1 hb.1 h.2.2.1,
        settled_rel? ha.2 hb.2 h.2.2.2]
theorem wire_list (reg : Reg) (g : Settings) : ∀ a b : List Expr, Expr.SettledList g a →
    Expr.SettledList g b → Expr.canonList a = Expr.canonList b →
    Expr.toProtoList reg a = Expr.toProtoList reg b
  | [], b, _, _, h => by
      cases b <;> simp only [Expr.canonList, reduceCtorEq] at h
      rfl
  | e :: es, b, ha, hb, h => by
      cases b <;> simp only [Expr.canonList, reduceCtorEq, List.cons.injEq] at h
      simp only [Expr.SettledList] at ha hb
      simp only [Expr.toProtoList, wire_expr reg g e _ ha.1 hb.1 h.1, wire_list reg g es _ ha.2 hb.2 h.2]
theorem wire_pairs (reg : Reg) (g : Settings) : ∀ a b : List EPair, EPair.SettledList g a →
    EPair.SettledList g b → EPair.canonList a = EPair.canonList b →
    EPair.toProtoList reg a = EPair.toProtoList reg b
  | [], b, _, _, h => by
      cases b with
      | nil => rfl
      | cons p ps => cases p; simp only [EPair.canonList, reduceCtorEq] at h
  | .mk x y :: es, b, ha, hb, h => by
      cases b with
      | nil => simp only [EPair.canonList, reduceCtorEq] at h
      | cons p ps =>
        cases p
        simp only [EPair.canonList, List.cons.injEq, EPair.mk.injEq] at h
        simp only [EPair.SettledList] at ha hb
        simp only [EPair.toProtoList, wire_expr reg g x _ ha.1 hb.1 h.1.1,
          wire_expr reg g y _ ha.2.1 hb.2.1 h.1.2, wire_pairs reg g es _ ha.2.2 hb.2.2 h.2]
theorem wire_cases (reg : Reg) (g : Settings) : ∀ a b : List ECase, ECase.SettledList g a →
    ECase.SettledList g b → ECase.canonList a = ECase.canonList b →
    ECase.toProtoList reg a = ECase.toProtoList reg b
  | [], b, _, _, h => by
      cases b with
      | nil => rfl
      | cons p ps => cases p; simp only [ECase.canonList, reduceCtorEq] at h
  | .mk x y :: es, b, ha, hb, h => by
      cases b with
      | nil => simp only [ECase.canonList, reduceCtorEq] at h
      | cons p ps =>
        cases p
        simp only [ECase.canonList, List.cons.injEq, ECase.mk.injEq] at h
        simp only [ECase.SettledList] at ha hb
        rw [settled_lit _ ha.1, settled_lit _ hb.1] at h
        simp only [ECase.toProtoList, h.1.1,
          wire_expr reg g y _ ha.2.1 hb.2.1 h.1.2, wire_cases reg g es _ ha.2.2 hb.2.2 h.2]
theorem wire_rows (reg : Reg) (g : Settings) : ∀ a b : List ERow, ERow.SettledList g a →
    ERow.SettledList g b → ERow.canonList a = ERow.canonList b →
    ERow.toProtoList reg a = ERow.toProtoList reg b
  | [], b, _, _, h => by
      cases b with
      | nil => rfl
      | cons p ps => cases p; simp only [ERow.canonList, reduceCtorEq] at h
  | .mk x :: es, b, ha, hb, h => by
      cases b with
      | nil => simp only [ERow.canonList, reduceCtorEq] at h
      | cons p ps =>
        cases p
        simp only [ERow.canonList, List.cons.injEq, ERow.mk.injEq] at h
        simp only [ERow.SettledList] at ha hb
        simp only [ERow.toProtoList, wire_list reg g x _ ha.1 hb.1 h.1, wire_rows reg g es _ ha.2 hb.2 h.2]
theorem wire_root (reg : Reg) (g : Settings) : ∀ a b : ERoot, a.Settled g → b.Settled g →
    a.canon = b.canon → a.toProto reg = b.toProto reg
  | .rootReference, b, _, _, h => by
      cases b <;> simp only [ERoot.canon, reduceCtorEq] at h
      rfl
  | .outer n, b, _, _, h => by
      cases b <;> simp only [ERoot.canon, reduceCtorEq, ERoot.outer.injEq] at h
      rw [h]
  | .lambdaParam n, b, _, _, h => by
      cases b <;> simp only [ERoot.canon, reduceCtorEq, ERoot.lambdaParam.injEq] at h
      rw [h]
  | .expr e, b, ha, hb, h => by
      cases b <;> simp only [ERoot.canon, reduceCtorEq, ERoot.expr.injEq] at h
      simp only [ERoot.Settled] at ha hb
      exact rootToProto_congr (isNil_of_canon h) (wire_expr reg g e _ ha hb h)
theorem wire_arg (reg : Reg) (g : Settings) : ∀ a b : EArg, a.Settled g → b.Settled g →
    a.canon = b.canon → a.toProto reg = b.toProto reg
  | .nil, b, _, _, h => by
      cases b <;> simp only [EArg.canon, reduceCtorEq] at h
      rfl
  | .expr e, b, ha, hb, h => by
      cases b <;> simp only [EArg.canon, reduceCtorEq, EArg.expr.injEq] at h
      simp only [EArg.Settled] at ha hb
      simp only [EArg.toProto, wire_expr reg g e _ ha hb h]
  | .type t, b, ha, hb, h => by
      cases b <;> simp only [EArg.canon, reduceCtorEq, EArg.type.injEq] at h
      simp only [EArg.Settled] at ha hb
      rw [settled_ty ha hb h]
  | .enum s, b, _, _, h => by
      cases b <;> simp only [EArg.canon, reduceCtorEq, EArg.enum.injEq] at h
      rw [h]
theorem wire_args (reg : Reg) (g : Settings) : ∀ a b : List EArg, EArg.SettledList g a →
    EArg.SettledList g b → EArg.canonList a = EArg.canonList b →
    EArg.toProtoList reg a = EArg.toProtoList reg b
  | [], b, _, _, h => by
      cases b <;> simp only [EArg.canonList, reduceCtorEq] at h
      rfl
  | e :: es, b, ha, hb, h => by
      cases b <;> simp only [EArg.canonList, reduceCtorEq, List.cons.injEq] at h
      simp only [EArg.SettledList] at ha hb
      simp only [EArg.toProtoList, wire_arg reg g e _ ha.1 hb.1 h.1, wire_args reg g es _ ha.2 hb.2 h.2]
theorem wire_sorts (reg : Reg) (g : Settings) : ∀ a b : List ESort, ESort.SettledList g a →
    ESort.SettledList g b → ESort.canonList a = ESort.canonList b →
    ESort.toProtoList reg a = ESort.toProtoList reg b
  | [], b, _, _, h => by
      cases b with
      | nil => rfl
      | cons p ps => cases p; simp only [ESort.canonList, reduceCtorEq] at h
  | .mk x y :: es, b, ha, hb, h => by
      cases b with
      | nil => simp only [ESort.canonList, reduceCtorEq] at h
      | cons p ps =>
        cases p
        simp only [ESort.canonList, List.cons.injEq, ESort.mk.injEq] at h
        simp only [ESort.SettledList] at ha hb
        simp only [ESort.toProtoList, wire_expr reg g x _ ha.1 hb.1 h.1.1, h.1.2,
          wire_sorts reg g es _ ha.2 hb.2 h.2]
end

/-! ## Values -/


mutual
theorem values_expr (w : World) (g : Settings) : ∀ a b : Expr, a.Settled g → b.Settled g →
    a.canon = b.canon → ∀ v, a.Yields w v ↔ b.Yields w v
  | .nil, b, _, _, h => by
      cases b <;> simp only [Expr.canon, reduceCtorEq] at h
      simp
  | .lit l, b, ha, hb, h => by
      cases b <;> simp only [Expr.canon, reduceCtorEq, Expr.lit.injEq] at h
      simp only [Expr.Settled] at ha hb
      rw [settled_lit _ ha, settled_lit _ hb] at h
      simp [h]
  | .fieldRef root ref k, b, ha, hb, h => by
      cases b <;> simp only [Expr.canon, reduceCtorEq, Expr.fieldRef.injEq] at h
      simp only [Expr.Settled] at ha hb
      rw [settled_ref ha.2, settled_ref hb.2] at h
      obtain ⟨h1, rfl, -⟩ := h
      intro v
      cases ref <;> simp only [Expr.Yields, values_root w g root _ ha.1 hb.1 h1]
  | .ifThen ifs els, b, ha, hb, h => by
      cases b <;> simp only [Expr.canon, reduceCtorEq, Expr.ifThen.injEq] at h
      simp only [Expr.Settled] at ha hb
      simp only [Expr.Yields, values_first w g ifs _ ha.1 hb.1 h.1, values_none w g ifs _ ha.1 hb.1 h.1,
        values_expr w g els _ ha.2 hb.2 h.2, implies_true]
  | .cast ty e f, b, ha, hb, h => by
      cases b <;> simp only [Expr.canon, reduceCtorEq, Expr.cast.injEq] at h
      simp only [Expr.Settled] at ha hb
      simp only [Expr.Yields, settled_ty ha.1 hb.1 h.1, values_expr w g e _ ha.2 hb.2 h.2.1, h.2.2,
        implies_true]
  | .dynParam ty r, b, ha, hb, h => by
      cases b <;> simp only [Expr.canon, reduceCtorEq, Expr.dynParam.injEq] at h
      simp only [Expr.Settled] at ha hb
      simp only [Expr.Yields, settled_ty ha hb h.1, implies_true]
  | .switch m ifs els, b, ha, hb, h => by
      cases b <;> simp only [Expr.canon, reduceCtorEq, Expr.switch.injEq] at h
      simp only [Expr.Settled] at ha hb
      simp only [Expr.Yields, values_expr w g m _ ha.1 hb.1 h.1,
        values_case w g ifs _ ha.2.1 hb.2.1 h.2.1, values_noCase w g ifs _ ha.2.1 hb.2.1 h.2.1,
        values_expr w g els _ ha.2.2 hb.2.2 h.2.2, isNil_of_canon h.2.2, implies_true]
  | .singularOr v os, b, ha, hb, h => by
      cases b <;> simp only [Expr.canon, reduceCtorEq, Expr.singularOr.injEq] at h
      simp only [Expr.Settled] at ha hb
      simp only [Expr.Yields, values_expr w g v _ ha.1 hb.1 h.1, values_list w g os _ ha.2 hb.2 h.2,
        implies_true]
  | .multiOr vs os, b, ha, hb, h => by
      cases b <;> simp only [Expr.canon, reduceCtorEq, Expr.multiOr.injEq] at h
      simp only [Expr.Settled] at ha hb
      simp only [Expr.Yields, values_list w g vs _ ha.1 hb.1 h.1, values_rows w g os _ ha.2 hb.2 h.2,
        implies_true]
  | .mapE n v kvs, b, ha, hb, h => by
      cases b <;> simp only [Expr.canon, reduceCtorEq, Expr.mapE.injEq] at h
      simp only [Expr.Settled] at ha hb
      simp only [Expr.Yields, values_pairs w g kvs _ ha hb h.2.2, implies_true]
  | .structE n v fs, b, ha, hb, h => by
      cases b <;> simp only [Expr.canon, reduceCtorEq, Expr.structE.injEq] at h
      simp only [Expr.Settled] at ha hb
      simp only [Expr.Yields, values_list w g fs _ ha hb h.2.2, implies_true]
  | .listE n v fs, b, ha, hb, h => by
      cases b <;> simp only [Expr.canon, reduceCtorEq, Expr.listE.injEq] at h
      simp only [Expr.Settled] at ha hb
      simp only [Expr.Yields, values_list w g fs _ ha hb h.2.2, implies_true]
  | .scalar a args, b, ha, hb, h => by
      cases b <;> simp only [Expr.canon, reduceCtorEq, Expr.scalar.injEq, FnAttrs.canon,
        FnAttrs.mk.injEq] at h
      simp only [Expr.Settled] at ha hb
      simp only [Expr.Yields, settled_ty ha.1 hb.1 h.1.2.2.2, implies_true]
  | .window a w args ss ps, b, ha, hb, h => by
      cases b <;> simp only [Expr.canon, reduceCtorEq, Expr.window.injEq, FnAttrs.canon,
        FnAttrs.mk.injEq] at h
      simp only [Expr.Settled] at ha hb
      simp only [Expr.Yields, settled_ty ha.1 hb.1 h.1.2.2.2, implies_true]
  | .lambda n v ps body, b, ha, hb, h => by
      cases b <;> simp only [Expr.canon, reduceCtorEq, Expr.lambda.injEq] at h
      simp only [Expr.Yields, implies_true]
  | .scalarSubquery r, b, ha, hb, h => by
      cases b <;> simp only [Expr.canon, reduceCtorEq, Expr.scalarSubquery.injEq] at h
      simp only [Expr.Settled] at ha hb
      simp [settled_rel ha hb h]
  | .inPredicate ns r, b, ha, hb, h => by
      cases b <;> simp only [Expr.canon, reduceCtorEq, Expr.inPredicate.injEq] at h
      simp only [Expr.Settled] at ha hb
      simp only [Expr.Yields, values_list w g ns _ ha.1 hb.1 h.1, settled_rel ha.2 hb.2 h.2,
        implies_true]
  | .setPredicate op r, b, ha, hb, h => by
      cases b <;> simp only [Expr.canon, reduceCtorEq, Expr.setPredicate.injEq] at h
      simp only [Expr.Settled] at ha hb
      simp [settled_rel ha hb h.2, h.1]
  | .setComparison x y l r, b, ha, hb, h => by
      cases b <;> simp only [Expr.canon, reduceCtorEq, Expr.setComparison.injEq] at h
      simp only [Expr.Settled] at ha hb
      obtain ⟨rfl, rfl, h3, h4⟩ := h
      obtain rfl := settled_rel? ha.2 hb.2 h4
      intro v
      cases r <;> simp only [Expr.Yields, values_expr w g l _ ha.1 hb.1 h3]
theorem values_root (w : World) (g : Settings) : ∀ a b : ERoot, a.Settled g → b.Settled g →
    a.canon = b.canon → ∀ v, a.Yields w v ↔ b.Yields w v
  | .rootReference, b, _, _, h => by
      cases b <;> simp only [ERoot.canon, reduceCtorEq] at h
      simp
  | .outer n, b, _, _, h => by
      cases b <;> simp only [ERoot.canon, reduceCtorEq, ERoot.outer.injEq] at h
      simp [h]
  | .lambdaParam n, b, _, _, h => by
      cases b <;> simp only [ERoot.canon, reduceCtorEq, ERoot.lambdaParam.injEq] at h
      simp [h]
  | .expr e, b, ha, hb, h => by
      cases b <;> simp only [ERoot.canon, reduceCtorEq, ERoot.expr.injEq] at h
      simp only [ERoot.Settled] at ha hb
      simp only [ERoot.Yields, values_expr w g e _ ha hb h, implies_true]
theorem values_list (w : World) (g : Settings) : ∀ a b : List Expr, Expr.SettledList g a →
    Expr.SettledList g b → Expr.canonList a = Expr.canonList b →
    ∀ vs, Expr.YieldsList w a vs ↔ Expr.YieldsList w b vs
  | [], b, _, _, h => by
      cases b <;> simp only [Expr.canonList, reduceCtorEq] at h
      simp
  | e :: es, b, ha, hb, h => by
      cases b <;> simp only [Expr.canonList, reduceCtorEq, List.cons.injEq] at h
      simp only [Expr.SettledList] at ha hb
      simp only [Expr.YieldsList, values_expr w g e _ ha.1 hb.1 h.1,
        values_list w g es _ ha.2 hb.2 h.2, implies_true]
theorem values_rows (w : World) (g : Settings) : ∀ a b : List ERow, ERow.SettledList g a →
    ERow.SettledList g b → ERow.canonList a = ERow.canonList b →
    ∀ vs, ERow.YieldsList w a vs ↔ ERow.YieldsList w b vs
  | [], b, _, _, h => by
      cases b with
      | nil => simp
      | cons p ps => cases p; simp only [ERow.canonList, reduceCtorEq] at h
  | .mk x :: es, b, ha, hb, h => by
      cases b with
      | nil => simp only [ERow.canonList, reduceCtorEq] at h
      | cons p ps =>
        cases p
        simp only [ERow.canonList, List.cons.injEq, ERow.mk.injEq] at h
        simp only [ERow.SettledList] at ha hb
        simp only [ERow.YieldsList, values_list w g x _ ha.1 hb.1 h.1,
          values_rows w g es _ ha.2 hb.2 h.2, implies_true]
theorem values_pairs (w : World) (g : Settings) : ∀ a b : List EPair, EPair.SettledList g a →
    EPair.SettledList g b → EPair.canonList a = EPair.canonList b →
    ∀ ks vs, EPair.YieldsAll w a ks vs ↔ EPair.YieldsAll w b ks vs
  | [], b, _, _, h => by
      cases b with
      | nil => simp
      | cons p ps => cases p; simp only [EPair.canonList, reduceCtorEq] at h
  | .mk x y :: es, b, ha, hb, h => by
      cases b with
      | nil => simp only [EPair.canonList, reduceCtorEq] at h
      | cons p ps =>
        cases p
        simp only [EPair.canonList, List.cons.injEq, EPair.mk.injEq] at h
        simp only [EPair.SettledList] at ha hb
        simp only [EPair.YieldsAll, values_expr w g x _ ha.1 hb.1 h.1.1,
          values_expr w g y _ ha.2.1 hb.2.1 h.1.2, values_pairs w g es _ ha.2.2 hb.2.2 h.2,
          implies_true]
theorem values_first (w : World) (g : Settings) : ∀ a b : List EPair, EPair.SettledList g a →
    EPair.SettledList g b → EPair.canonList a = EPair.canonList b →
    ∀ v, EPair.YieldsFirst w a v ↔ EPair.YieldsFirst w b v
  | [], b, _, _, h => by
      cases b with
      | nil => simp
      | cons p ps => cases p; simp only [EPair.canonList, reduceCtorEq] at h
  | .mk x y :: es, b, ha, hb, h => by
      cases b with
      | nil => simp only [EPair.canonList, reduceCtorEq] at h
      | cons p ps =>
        cases p
        simp only [EPair.canonList, List.cons.injEq, EPair.mk.injEq] at h
        simp only [EPair.SettledList] at ha hb
        simp only [EPair.YieldsFirst, values_expr w g x _ ha.1 hb.1 h.1.1,
          values_expr w g y _ ha.2.1 hb.2.1 h.1.2, values_first w g es _ ha.2.2 hb.2.2 h.2,
          implies_true]
theorem values_none (w : World) (g : Settings) : ∀ a b : List EPair, EPair.SettledList g a →
    EPair.SettledList g b → EPair.canonList a = EPair.canonList b →
    (EPair.NoneTrue w a ↔ EPair.NoneTrue w b)
  | [], b, _, _, h => by
      cases b with
      | nil => simp
      | cons p ps => cases p; simp only [EPair.canonList, reduceCtorEq] at h
  | .mk x y :: es, b, ha, hb, h => by
      cases b with
      | nil => simp only [EPair.canonList, reduceCtorEq] at h
      | cons p ps =>
        cases p
        simp only [EPair.canonList, List.cons.injEq, EPair.mk.injEq] at h
        simp only [EPair.SettledList] at ha hb
        simp only [EPair.NoneTrue, values_expr w g x _ ha.1 hb.1 h.1.1,
          values_none w g es _ ha.2.2 hb.2.2 h.2]
theorem values_case (w : World) (g : Settings) : ∀ a b : List ECase, ECase.SettledList g a →
    ECase.SettledList g b → ECase.canonList a = ECase.canonList b →
    ∀ x v, ECase.YieldsFirst w x a v ↔ ECase.YieldsFirst w x b v
  | [], b, _, _, h => by
      cases b with
      | nil => simp
      | cons p ps => cases p; simp only [ECase.canonList, reduceCtorEq] at h
  | .mk x y :: es, b, ha, hb, h => by
      cases b with
      | nil => simp only [ECase.canonList, reduceCtorEq] at h
      | cons p ps =>
        cases p
        simp only [ECase.canonList, List.cons.injEq, ECase.mk.injEq] at h
        simp only [ECase.SettledList] at ha hb
        rw [settled_lit _ ha.1, settled_lit _ hb.1] at h
        simp only [ECase.YieldsFirst, h.1.1, values_expr w g y _ ha.2.1 hb.2.1 h.1.2,
          values_case w g es _ ha.2.2 hb.2.2 h.2, implies_true]
theorem values_noCase (w : World) (g : Settings) : ∀ a b : List ECase, ECase.SettledList g a →
    ECase.SettledList g b → ECase.canonList a = ECase.canonList b →
    ∀ x, ECase.NoneEqual w x a ↔ ECase.NoneEqual w x b
  | [], b, _, _, h => by
      cases b with
      | nil => simp
      | cons p ps => cases p; simp only [ECase.canonList, reduceCtorEq] at h
  | .mk x y :: es, b, ha, hb, h => by
      cases b with
      | nil => simp only [ECase.canonList, reduceCtorEq] at h
      | cons p ps =>
        cases p
        simp only [ECase.canonList, List.cons.injEq, ECase.mk.injEq] at h
        simp only [ECase.SettledList] at ha hb
        rw [settled_lit _ ha.1, settled_lit _ hb.1] at h
        simp only [ECase.NoneEqual, h.1.1, values_noCase w g es _ ha.2.2 hb.2.2 h.2, implies_true]
end

/-! ## Types -/

theorem stepTo_unique {s : Step} {t u u' : Ty} (h : StepTo s t u) (h' : StepTo s t u') : u = u' := by
  cases h with
  | field i f n v ts t hi ht =>
    cases h' with
    | field j _ _ _ _ t' hj ht' =>
      rw [hi] at hj
      have : i = j := by exact_mod_cast hj
      subst this
      rw [ht] at ht'
      exact Option.some.inj ht'
  | element => cases h'; rfl
  | key => cases h'; rfl

theorem walk_unique {ss : List Step} {t u u' : Ty} (h : Walk ss t u) (h' : Walk ss t u') : u = u' := by
  induction h generalizing u' with
  | done t => cases h'; rfl
  | step s ss t u w h1 _ ih =>
    cases h' with
    | step _ _ _ v _ h1' h2' =>
      rw [← stepTo_unique h1 h1'] at h2'
      exact ih h2'

mutual
theorem type_expr (s : Shape) (g : Settings) : ∀ a b : Expr, a.Settled g → b.Settled g →
    a.TypesKnown s → b.TypesKnown s → a.canon = b.canon → a.getType = b.getType
  | .nil, b, _, _, _, _, h => by
      cases b <;> simp only [Expr.canon, reduceCtorEq] at h
      simp
  | .lit l, b, ha, hb, _, _, h => by
      cases b <;> simp only [Expr.canon, reduceCtorEq, Expr.lit.injEq] at h
      simp only [Expr.Settled] at ha hb
      rw [settled_lit _ ha, settled_lit _ hb] at h
      simp [h]
  | .fieldRef root ref k, b, ha, hb, ca, cb, h => by
      cases b <;> simp only [Expr.canon, reduceCtorEq, Expr.fieldRef.injEq] at h
      simp only [Expr.Settled] at ha hb
      simp only [Expr.TypesKnown] at ca cb
      rw [settled_ref ha.2, settled_ref hb.2] at h
      obtain ⟨h1, rfl, -⟩ := h
      obtain ⟨c1, p, T, t, rfl, hT, rfl, hw⟩ := ca
      obtain ⟨c2, p', T', t', hp, hT', rfl, hw'⟩ := cb
      injection hp with hp
      subst hp
      rw [type_root s g root _ ha.1 hb.1 c1 c2 h1 T T' hT hT'] at hw
      simp only [Expr.getType, walk_unique hw hw']
  | .ifThen ifs els, b, ha, hb, ca, cb, h => by
      cases b <;> simp only [Expr.canon, reduceCtorEq, Expr.ifThen.injEq] at h
      simp only [Expr.Settled] at ha hb
      simp only [Expr.TypesKnown] at ca cb
      simp only [Expr.getType, type_expr s g els _ ha.2 hb.2 ca cb h.2]
  | .cast ty e f, b, ha, hb, _, _, h => by
      cases b <;> simp only [Expr.canon, reduceCtorEq, Expr.cast.injEq] at h
      simp only [Expr.Settled] at ha hb
      simp only [Expr.getType, settled_ty ha.1 hb.1 h.1]
  | .dynParam ty r, b, ha, hb, _, _, h => by
      cases b <;> simp only [Expr.canon, reduceCtorEq, Expr.dynParam.injEq] at h
      simp only [Expr.Settled] at ha hb
      simp only [Expr.getType, settled_ty ha hb h.1]
  | .switch m ifs els, b, ha, hb, ca, cb, h => by
      cases b <;> simp only [Expr.canon, reduceCtorEq, Expr.switch.injEq] at h
      simp only [Expr.Settled] at ha hb
      simp only [Expr.TypesKnown] at ca cb
      simp only [Expr.getType, type_cases s g ifs _ ha.2.1 hb.2.1 ca.1 cb.1 h.2.1,
        isNil_of_canon h.2.2, type_expr s g els _ ha.2.2 hb.2.2 ca.2 cb.2 h.2.2]
  | .singularOr v os, b, _, _, _, _, h => by
      cases b <;> simp only [Expr.canon, reduceCtorEq] at h
      simp only [Expr.getType]
  | .multiOr vs os, b, _, _, _, _, h => by
      cases b <;> simp only [Expr.canon, reduceCtorEq] at h
      simp only [Expr.getType]
  | .mapE n v [], b, ha, hb, ca, cb, h => by
      cases b <;> simp only [Expr.canon, reduceCtorEq, Expr.mapE.injEq] at h
      rename_i n' v' kvs'
      cases kvs' with
      | nil => simp only [Expr.getType]
      | cons p ps => cases p; simp only [EPair.canonList, reduceCtorEq, and_false] at h
  | .mapE n v (.mk x y :: _), b, ha, hb, ca, cb, h => by
      cases b <;> simp only [Expr.canon, reduceCtorEq, Expr.mapE.injEq] at h
      rename_i n' v' kvs'
      cases kvs' with
      | nil => simp only [EPair.canonList, reduceCtorEq, and_false] at h
      | cons p ps =>
        cases p
        simp only [Expr.Settled, EPair.SettledList] at ha hb
        simp only [Expr.TypesKnown, EPair.TypesKnownList] at ca cb
        simp only [EPair.canonList, List.cons.injEq, EPair.mk.injEq] at h
        simp only [Expr.getType, type_expr s g x _ ha.1 hb.1 ca.1 cb.1 h.2.2.1.1,
          type_expr s g y _ ha.2.1 hb.2.1 ca.2.1 cb.2.1 h.2.2.1.2, h.1, h.2.1]
  | .structE n v fs, b, ha, hb, ca, cb, h => by
      cases b <;> simp only [Expr.canon, reduceCtorEq, Expr.structE.injEq] at h
      simp only [Expr.Settled] at ha hb
      simp only [Expr.TypesKnown] at ca cb
      simp only [Expr.getType, type_list s g fs _ ha hb ca cb h.2.2, h.1, h.2.1]
  | .listE n v [], b, ha, hb, ca, cb, h => by
      cases b <;> simp only [Expr.canon, reduceCtorEq, Expr.listE.injEq] at h
      rename_i n' v' es'
      cases es' with
      | nil => simp only [Expr.getType]
      | cons p ps => simp only [Expr.canonList, reduceCtorEq, and_false] at h
  | .listE n v (x :: _), b, ha, hb, ca, cb, h => by
      cases b <;> simp only [Expr.canon, reduceCtorEq, Expr.listE.injEq] at h
      rename_i n' v' es'
      cases es' with
      | nil => simp only [Expr.canonList, reduceCtorEq, and_false] at h
      | cons p ps =>
        simp only [Expr.Settled, Expr.SettledList] at ha hb
        simp only [Expr.TypesKnown, Expr.TypesKnownList] at ca cb
        simp only [Expr.canonList, List.cons.injEq] at h
        simp only [Expr.getType, type_expr s g x _ ha.1 hb.1 ca.1 cb.1 h.2.2.1, h.1, h.2.1]
  | .scalar a args, b, ha, hb, _, _, h => by
      cases b <;> simp only [Expr.canon, reduceCtorEq, Expr.scalar.injEq, FnAttrs.canon,
        FnAttrs.mk.injEq] at h
      simp only [Expr.Settled] at ha hb
      simp only [Expr.getType, settled_ty ha.1 hb.1 h.1.2.2.2]
  | .window a w args ss ps, b, ha, hb, _, _, h => by
      cases b <;> simp only [Expr.canon, reduceCtorEq, Expr.window.injEq, FnAttrs.canon,
        FnAttrs.mk.injEq] at h
      simp only [Expr.Settled] at ha hb
      simp only [Expr.getType, settled_ty ha.1 hb.1 h.1.2.2.2]
  | .lambda n v ps body, b, ha, hb, ca, cb, h => by
      cases b <;> simp only [Expr.canon, reduceCtorEq, Expr.lambda.injEq] at h
      simp only [Expr.Settled] at ha hb
      simp only [Expr.TypesKnown] at ca cb
      obtain ⟨-, -, h3, h4⟩ := h
      obtain rfl := settled_tys ha.1 hb.1 h3
      simp only [Expr.getType, type_expr (s.under ps) g body _ ha.2 hb.2 ca cb h4]
  | .scalarSubquery r, b, ha, hb, _, _, h => by
      cases b <;> simp only [Expr.canon, reduceCtorEq, Expr.scalarSubquery.injEq] at h
      simp only [Expr.Settled] at ha hb
      simp [settled_rel ha hb h]
  | .inPredicate ns r, b, _, _, _, _, h => by
      cases b <;> simp only [Expr.canon, reduceCtorEq] at h
      simp only [Expr.getType]
  | .setPredicate op r, b, _, _, _, _, h => by
      cases b <;> simp only [Expr.canon, reduceCtorEq] at h
      simp only [Expr.getType]
  | .setComparison x y l r, b, _, _, _, _, h => by
      cases b <;> simp only [Expr.canon, reduceCtorEq] at h
      simp only [Expr.getType]
theorem type_root (s : Shape) (g : Settings) : ∀ a b : ERoot, a.Settled g → b.Settled g →
    a.TypesKnown s → b.TypesKnown s → a.canon = b.canon → ∀ t u, a.HasType s t → b.HasType s u → t = u
  | .rootReference, b, _, _, _, _, h => by
      cases b <;> simp only [ERoot.canon, reduceCtorEq] at h
      simp only [ERoot.HasType]
      rintro _ _ rfl rfl
      rfl
  | .outer n, b, _, _, _, _, h => by
      cases b <;> simp only [ERoot.canon, reduceCtorEq, ERoot.outer.injEq] at h
      subst h
      simp only [ERoot.HasType]
      rintro _ _ rfl rfl
      rfl
  | .lambdaParam n, b, _, _, _, _, h => by
      cases b <;> simp only [ERoot.canon, reduceCtorEq, ERoot.lambdaParam.injEq] at h
      subst h
      simp only [ERoot.HasType]
      rintro _ _ rfl rfl
      rfl
  | .expr e, b, ha, hb, ca, cb, h => by
      cases b <;> simp only [ERoot.canon, reduceCtorEq, ERoot.expr.injEq] at h
      simp only [ERoot.Settled] at ha hb
      simp only [ERoot.TypesKnown] at ca cb
      simp only [ERoot.HasType, type_expr s g e _ ha hb ca cb h]
      intro t u h1 h2
      rw [h1] at h2
      injection h2
theorem type_list (s : Shape) (g : Settings) : ∀ a b : List Expr, Expr.SettledList g a →
    Expr.SettledList g b → Expr.TypesKnownList s a → Expr.TypesKnownList s b →
    Expr.canonList a = Expr.canonList b → Expr.getTypes a = Expr.getTypes b
  | [], b, _, _, _, _, h => by
      cases b <;> simp only [Expr.canonList, reduceCtorEq] at h
      simp
  | e :: es, b, ha, hb, ca, cb, h => by
      cases b <;> simp only [Expr.canonList, reduceCtorEq, List.cons.injEq] at h
      simp only [Expr.SettledList] at ha hb
      simp only [Expr.TypesKnownList] at ca cb
      simp only [Expr.getTypes, type_expr s g e _ ha.1 hb.1 ca.1 cb.1 h.1,
        type_list s g es _ ha.2 hb.2 ca.2 cb.2 h.2]
theorem type_cases (s : Shape) (g : Settings) : ∀ a b : List ECase, ECase.SettledList g a →
    ECase.SettledList g b → ECase.TypesKnownList s a → ECase.TypesKnownList s b →
    ECase.canonList a = ECase.canonList b → ∀ t, ECase.branchType a t = ECase.branchType b t
  | [], b, _, _, _, _, h => by
      cases b with
      | nil => simp
      | cons p ps => cases p; simp only [ECase.canonList, reduceCtorEq] at h
  | .mk x y :: es, b, ha, hb, ca, cb, h => by
      cases b with
      | nil => simp only [ECase.canonList, reduceCtorEq] at h
      | cons p ps =>
        cases p
        simp only [ECase.canonList, List.cons.injEq, ECase.mk.injEq] at h
        simp only [ECase.SettledList] at ha hb
        simp only [ECase.TypesKnownList] at ca cb
        simp only [ECase.branchType, type_expr s g y _ ha.2.1 hb.2.1 ca.1 cb.1 h.1.2,
          type_cases s g es _ ha.2.2 hb.2.2 ca.2 cb.2 h.2, implies_true]
end

end Verif
