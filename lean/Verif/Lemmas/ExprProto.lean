import Verif.Spec.ExprProto
import Verif.Props.FieldRef
import Verif.Props.Literals
/-! # Helper lemmas about expression round trips -/

namespace Verif

mutual
theorem noCompound_erase : ∀ t : Ty, t.NoCompound → t.erase = t
  | .prim _ _ _, _ => by simp [Ty.erase]
  | .fixed _ _ _ _, _ => by simp [Ty.erase]
  | .decimal _ _ _ _, _ => by simp [Ty.erase]
  | .prec _ _ _ _, _ => by simp [Ty.erase]
  | .intervalCompound _ _ _ _, h => by simp [Ty.NoCompound] at h
  | .intervalYearToMonth _ _, _ => by simp [Ty.erase]
  | .enum _ _ _ _ _, _ => by simp [Ty.erase]
  | .struct _ _ ts, h => by
      simp only [Ty.NoCompound] at h
      simp [Ty.erase, noCompound_eraseList ts h]
  | .func _ ps r, h => by
      simp only [Ty.NoCompound] at h
      simp [Ty.erase, noCompound_eraseList ps h.1, noCompound_erase r h.2]
  | .list _ _ t, h => by
      simp only [Ty.NoCompound] at h
      simp [Ty.erase, noCompound_erase t h]
  | .map _ _ k e, h => by
      simp only [Ty.NoCompound] at h
      simp [Ty.erase, noCompound_erase k h.1, noCompound_erase e h.2]
  | .udt _ _ _ ps, h => by
      simp only [Ty.NoCompound] at h
      simp [Ty.erase, noCompound_peraseList ps h]
theorem noCompound_eraseList : ∀ ts : List Ty, Ty.NoCompoundList ts → Ty.eraseList ts = ts
  | [], _ => rfl
  | t :: ts, h => by
      simp only [Ty.NoCompoundList] at h
      simp [Ty.eraseList, noCompound_erase t h.1, noCompound_eraseList ts h.2]
theorem noCompound_perase : ∀ p : TParam, p.NoCompound → p.erase = p
  | .nil, _ => by simp [TParam.erase]
  | .null, _ => by simp [TParam.erase]
  | .dataType t, h => by
      simp only [TParam.NoCompound] at h
      simp [TParam.erase, noCompound_erase t h]
  | .boolean _, _ => by simp [TParam.erase]
  | .integer _, _ => by simp [TParam.erase]
  | .enum _, _ => by simp [TParam.erase]
  | .string _, _ => by simp [TParam.erase]
theorem noCompound_peraseList : ∀ ps : List TParam, TParam.NoCompoundList ps →
    TParam.eraseList ps = ps
  | [], _ => rfl
  | p :: ps, h => by
      simp only [TParam.NoCompoundList] at h
      simp [TParam.eraseList, noCompound_perase p h.1, noCompound_peraseList ps h.2]
end

mutual
theorem erase_noCompound : ∀ t : Ty, t.erase.NoCompound → t.NoCompound
  | .prim _ _ _, _ => by simp [Ty.NoCompound]
  | .fixed _ _ _ _, _ => by simp [Ty.NoCompound]
  | .decimal _ _ _ _, _ => by simp [Ty.NoCompound]
  | .prec _ _ _ _, _ => by simp [Ty.NoCompound]
  | .intervalCompound _ _ _ _, h => by simp [Ty.erase, Ty.NoCompound] at h
  | .intervalYearToMonth _ _, _ => by simp [Ty.NoCompound]
  | .enum _ _ _ _ _, _ => by simp [Ty.NoCompound]
  | .struct _ _ ts, h => by
      simp only [Ty.erase, Ty.NoCompound] at h ⊢
      exact erase_noCompoundList ts h
  | .func _ ps r, h => by
      simp only [Ty.erase, Ty.NoCompound] at h ⊢
      exact ⟨erase_noCompoundList ps h.1, erase_noCompound r h.2⟩
  | .list _ _ t, h => by
      simp only [Ty.erase, Ty.NoCompound] at h ⊢
      exact erase_noCompound t h
  | .map _ _ k e, h => by
      simp only [Ty.erase, Ty.NoCompound] at h ⊢
      exact ⟨erase_noCompound k h.1, erase_noCompound e h.2⟩
  | .udt _ _ _ ps, h => by
      simp only [Ty.erase, Ty.NoCompound] at h ⊢
      exact perase_noCompoundList ps h
theorem erase_noCompoundList : ∀ ts : List Ty, Ty.NoCompoundList (Ty.eraseList ts) →
    Ty.NoCompoundList ts
  | [], _ => trivial
  | t :: ts, h => by
      simp only [Ty.eraseList, Ty.NoCompoundList] at h ⊢
      exact ⟨erase_noCompound t h.1, erase_noCompoundList ts h.2⟩
theorem perase_noCompound : ∀ p : TParam, p.erase.NoCompound → p.NoCompound
  | .nil, _ => by simp [TParam.NoCompound]
  | .null, _ => by simp [TParam.NoCompound]
  | .dataType t, h => by
      simp only [TParam.erase, TParam.NoCompound] at h ⊢
      exact erase_noCompound t h
  | .boolean _, _ => by simp [TParam.NoCompound]
  | .integer _, _ => by simp [TParam.NoCompound]
  | .enum _, _ => by simp [TParam.NoCompound]
  | .string _, _ => by simp [TParam.NoCompound]
theorem perase_noCompoundList : ∀ ps : List TParam, TParam.NoCompoundList (TParam.eraseList ps) →
    TParam.NoCompoundList ps
  | [], _ => trivial
  | p :: ps, h => by
      simp only [TParam.eraseList, TParam.NoCompoundList] at h ⊢
      exact ⟨perase_noCompound p h.1, perase_noCompoundList ps h.2⟩
end

theorem same_noCompound {t t' : Ty} (h : t.NoCompound) (hs : t.erase = t'.erase) : t' = t := by
  have h1 := noCompound_erase t h
  have h2 : t'.NoCompound := erase_noCompound t' (by rw [← hs, h1]; exact h)
  rw [← noCompound_erase t' h2, ← hs, h1]

mutual
theorem lit_noCompound_erase : ∀ l : Lit, l.NoCompound → l.erase = l
  | .nil, _ => by simp [Lit.erase]
  | .null t, h => by
      simp only [Lit.NoCompound] at h
      simp [Lit.erase, noCompound_erase t h]
  | .prim _ t, h => by
      simp only [Lit.NoCompound] at h
      simp [Lit.erase, noCompound_erase t h]
  | .bytes _ _ t, h => by
      simp only [Lit.NoCompound] at h
      simp [Lit.erase, noCompound_erase t h]
  | .struct fs t, h => by
      simp only [Lit.NoCompound] at h
      simp [Lit.erase, noCompound_erase t h.2, lit_noCompound_eraseList fs h.1]
  | .list fs t, h => by
      simp only [Lit.NoCompound] at h
      simp [Lit.erase, noCompound_erase t h.2, lit_noCompound_eraseList fs h.1]
  | .map fs t, h => by
      simp only [Lit.NoCompound] at h
      simp [Lit.erase, noCompound_erase t h.2, kv_noCompound_eraseList fs h.1]
  | .proto _ t, h => by
      simp only [Lit.NoCompound] at h
      simp [Lit.erase, noCompound_erase t h]
  | .intervalYearToMonth _ _ _, _ => by simp [Lit.erase]
  | .intervalCompound _ _ _ _ _ _ _, _ => by simp [Lit.erase]
theorem lit_noCompound_eraseList : ∀ ls : List Lit, Lit.NoCompoundList ls → Lit.eraseList ls = ls
  | [], _ => rfl
  | l :: ls, h => by
      simp only [Lit.NoCompoundList] at h
      simp [Lit.eraseList, lit_noCompound_erase l h.1, lit_noCompound_eraseList ls h.2]
theorem kv_noCompound_eraseList : ∀ ls : List KeyValue, KeyValue.NoCompoundList ls →
    KeyValue.eraseList ls = ls
  | [], _ => rfl
  | .mk k v :: ls, h => by
      simp only [KeyValue.NoCompoundList] at h
      simp [KeyValue.eraseList, lit_noCompound_erase k h.1, lit_noCompound_erase v h.2.1,
        kv_noCompound_eraseList ls h.2.2]
end

mutual
theorem lit_erase_noCompound : ∀ l : Lit, l.erase.NoCompound → l.NoCompound
  | .nil, _ => by simp [Lit.NoCompound]
  | .null t, h => by
      simp only [Lit.erase, Lit.NoCompound] at h ⊢
      exact erase_noCompound t h
  | .prim _ t, h => by
      simp only [Lit.erase, Lit.NoCompound] at h ⊢
      exact erase_noCompound t h
  | .bytes _ _ t, h => by
      simp only [Lit.erase, Lit.NoCompound] at h ⊢
      exact erase_noCompound t h
  | .struct fs t, h => by
      simp only [Lit.erase, Lit.NoCompound] at h ⊢
      exact ⟨lit_erase_noCompoundList fs h.1, erase_noCompound t h.2⟩
  | .list fs t, h => by
      simp only [Lit.erase, Lit.NoCompound] at h ⊢
      exact ⟨lit_erase_noCompoundList fs h.1, erase_noCompound t h.2⟩
  | .map fs t, h => by
      simp only [Lit.erase, Lit.NoCompound] at h ⊢
      exact ⟨kv_erase_noCompoundList fs h.1, erase_noCompound t h.2⟩
  | .proto _ t, h => by
      simp only [Lit.erase, Lit.NoCompound] at h ⊢
      exact erase_noCompound t h
  | .intervalYearToMonth _ _ _, _ => by simp [Lit.NoCompound]
  | .intervalCompound _ _ _ _ _ _ _, _ => by simp [Lit.NoCompound]
theorem lit_erase_noCompoundList : ∀ ls : List Lit, Lit.NoCompoundList (Lit.eraseList ls) →
    Lit.NoCompoundList ls
  | [], _ => trivial
  | l :: ls, h => by
      simp only [Lit.eraseList, Lit.NoCompoundList] at h ⊢
      exact ⟨lit_erase_noCompound l h.1, lit_erase_noCompoundList ls h.2⟩
theorem kv_erase_noCompoundList : ∀ ls : List KeyValue,
    KeyValue.NoCompoundList (KeyValue.eraseList ls) → KeyValue.NoCompoundList ls
  | [], _ => trivial
  | .mk k v :: ls, h => by
      simp only [KeyValue.eraseList, KeyValue.NoCompoundList] at h ⊢
      exact ⟨lit_erase_noCompound k h.1, lit_erase_noCompound v h.2.1,
        kv_erase_noCompoundList ls h.2.2⟩
end

theorem lit_same_noCompound {l l' : Lit} (h : l.NoCompound) (hs : l.erase = l'.erase) : l' = l := by
  have h1 := lit_noCompound_erase l h
  have h2 : l'.NoCompound := lit_erase_noCompound l' (by rw [← hs, h1]; exact h)
  rw [← lit_noCompound_erase l' h2, ← hs, h1]

/-- Types that can be carried are read back identically. -/
theorem type_exact {t : Ty} {m : PTy} (hs : t.Sendable) (h : typeToProto t = .ok m) :
    typeFromProto m = .ok t := by
  obtain ⟨t', h1, h2, h3⟩ := type_from_to t m hs.1 h
  rw [h1, same_noCompound hs.2 (show t.erase = t'.erase by rw [h2, h3])]

/-- Literals that can be carried are read back identically. -/
theorem lit_exact {l : Lit} {m : PLit} (hs : l.Sendable) (h : literalToProto l = .ok m) :
    literalFromProto m = .ok l := by
  obtain ⟨l', h1, h2⟩ := C12_literal_roundtrip_partial l m hs.1 h
  rw [h1, lit_same_noCompound hs.2 h2]

theorem seg_keysTyped : ∀ s : Seg, s.KeysSendable → s.KeysTyped
  | .nil, _ => trivial
  | .mapKey k c, h => ⟨h.2.1, seg_keysTyped c h.2.2⟩
  | .structField _ c, h => seg_keysTyped c h
  | .listElement _ c, h => seg_keysTyped c h

theorem segChild_exact : ∀ (s : Seg) (m : PSeg), s.KeysSendable → segChildToProto s = .ok m →
    segFromProto m = .ok s
  | .nil, m, _, h => by simp only [segChildToProto] at h; cases h; rfl
  | .mapKey k c, m, hs, h => by
      simp only [segChildToProto, Res.bind_eq_ok] at h
      obtain ⟨c', hc, k', hk, h⟩ := h
      cases h
      simp only [Seg.KeysSendable] at hs
      simp [segFromProto, lit_exact hs.1 hk, segChild_exact c c' hs.2.2 hc]
  | .structField f c, m, hs, h => by
      simp only [segChildToProto, Res.bind_eq_ok] at h
      obtain ⟨c', hc, h⟩ := h
      cases h
      simp [segFromProto, segChild_exact c c' hs hc]
  | .listElement o c, m, hs, h => by
      simp only [segChildToProto, Res.bind_eq_ok] at h
      obtain ⟨c', hc, h⟩ := h
      cases h
      simp [segFromProto, segChild_exact c c' hs hc]

theorem types_exact : ∀ (ts : List Ty) (ms : List PTy), (∀ t ∈ ts, t.Sendable) →
    Res.mapL typeToProto ts = .ok ms → Res.mapL typeFromProto ms = .ok ts
  | [], ms, _, h => by simp only [Res.mapL_nil] at h; cases h; rfl
  | t :: ts, ms, hs, h => by
      simp only [Res.mapL_cons, Res.bind_eq_ok] at h
      obtain ⟨m, hm, ms', hms, h⟩ := h
      cases h
      simp only [Res.mapL_cons, type_exact (hs t (by simp)) hm,
        types_exact ts ms' (fun t ht => hs t (by simp [ht])) hms, Res.ok_bind]

theorem bound_exact (b : Option Bound) : boundFromProto (b.map Bound.toMsg) = b := by
  cases b with
  | none => rfl
  | some b => cases b <;> rfl

theorem winAttrs_exact (w : WinAttrs) : w.toMsg.toAttrs = w := by
  cases w; simp [WinAttrs.toMsg, WinMsg.toAttrs, bound_exact]

theorem sortKind_exact (k : SortKind) (h : k ≠ .nil) : sortKindFromProto k.toMsg = .ok k := by
  cases k with
  | nil => exact absurd rfl h
  | _ => rfl

theorem resolve_exact {reg : Reg} {lookup : UInt32 → Option String} {a : FnAttrs}
    (h : DeclaredIn reg lookup a) : resolveCall reg lookup a.funcRef = .ok (a.funcRef, a.declaration) := by
  obtain ⟨id, h1, h2⟩ := h
  rcases h2 with h2 | ⟨h2, h3⟩
  · simp [resolveCall, h1, h2]
  · simp [resolveCall, h1, h2, h3]

theorem ref_exact {reg : Reg} {base : Option (List Ty)} {root : ERoot} {ref : ERef}
    {known : Option Ty} {m : RefMsg}
    (hr : match ref with
      | .nil => known = none
      | .seg s => s ≠ .nil ∧ s.KeysSendable ∧ Recorded base root s known
      | .mask _ => False)
    (h : refToProto reg ref = .ok m) : refFromProto reg base root m = .ok (ref, known) := by
  cases ref with
  | nil => simp only [refToProto] at h; cases h; simp only at hr; simp [refFromProto, hr]
  | mask a => exact hr.elim
  | seg s =>
    simp only [refToProto, Res.bind_eq_ok] at h
    obtain ⟨p, hp, h⟩ := h
    cases h
    obtain ⟨hn, hk, hrec⟩ := hr
    have hd := segChild_exact s p hk (segToProto_child hp)
    have hnil : s.isNil = false := by cases s <;> first | rfl | exact absurd rfl hn
    have hg := fun t => (C14_getType s t hn (seg_keysTyped s hk)).1
    cases root with
    | rootReference =>
      cases base with
      | none => simp only [Recorded] at hrec; simp [refFromProto, hd, hnil, hrec]
      | some ts =>
        simp only [Recorded] at hrec
        obtain ⟨t, ht, hkn⟩ := hrec
        simp [refFromProto, hd, hnil, (hg _ t).2 ht, hkn]
    | outer n => simp only [Recorded] at hrec; simp [refFromProto, hd, hnil, hrec]
    | lambdaParam n => simp only [Recorded] at hrec; simp [refFromProto, hd, hnil, hrec]
    | expr e =>
      simp only [Recorded] at hrec
      obtain ⟨u, t, hu, ht, hkn⟩ := hrec
      simp [refFromProto, hd, hnil, hu, (hg _ t).2 ht, hkn]

theorem sendable_not_nil {reg : Reg} {base : Option (List Ty)} {e : Expr}
    (h : Expr.Sendable reg base e) : e.isNil = false := by
  cases e <;> first | rfl | simp [Expr.Sendable] at h

theorem optToProto_sendable {reg : Reg} {base : Option (List Ty)} {e : Expr}
    (h : Expr.Sendable reg base e) : Expr.optToProto reg e = Expr.toProto reg e := by
  cases e <;> first | simp [Expr.Sendable] at h; done | simp [Expr.optToProto]

theorem toProto_not_nil {reg : Reg} {e : Expr} {m : ExprMsg} (h : Expr.toProto reg e = .ok m) :
    m.isNil = false := by
  cases m with
  | nil =>
    cases e with
    | setComparison a b c d => cases d <;> simp [Expr.toProto, Res.bind_eq_ok] at h
    | _ => simp [Expr.toProto, Res.bind_eq_ok] at h
  | _ => rfl

theorem typeArg_sendable {t : Ty} (h : t.Sendable) : typeArgToProto t = typeToProto t := by
  cases t <;> first | rfl | simp [Ty.Sendable, Ty.NoCompound] at h

/-- a literal that can be written is not nil -/
theorem ofLit_sent {l : Lit} {m : PLit} (h : literalToProto l = .ok m) : Expr.ofLit l = .lit l := by
  cases l <;> first | rfl | simp [literalToProto] at h

/-- an expression that can be written is not nil -/
theorem ofExpr_sent {reg : Reg} {e : Expr} {m : ExprMsg} (h : Expr.toProto reg e = .ok m) :
    EArg.ofExpr e = .expr e := by
  cases e <;> first | rfl | simp [Expr.toProto] at h

mutual
theorem expr_exact (reg : Reg) (base : Option (List Ty)) : ∀ (e : Expr) (m : ExprMsg),
    Expr.Sendable reg base e → Expr.toProto reg e = .ok m → Expr.fromProto reg base m = .ok e
  | .nil, m, hs, h => by simp [Expr.Sendable] at hs
  | .lit l, m, hs, h => by
      simp only [Expr.Sendable] at hs
      simp only [Expr.toProto, Res.bind_eq_ok] at h
      obtain ⟨p, hp, h⟩ := h
      cases h
      simp [Expr.fromProto, lit_exact hs hp, ofLit_sent hp]
  | .fieldRef root ref known, m, hs, h => by
      simp only [Expr.Sendable] at hs
      simp only [Expr.toProto, Res.bind_eq_ok] at h
      obtain ⟨r, hr, t, ht, h⟩ := h
      cases h
      simp only [Expr.fromProto, root_exact reg base root t hs.1 ht, Res.ok_bind,
        ref_exact (reg := reg) hs.2 hr]
  | .ifThen ifs els, m, hs, h => by
      simp only [Expr.Sendable] at hs
      simp only [Expr.toProto, optToProto_sendable hs.2, Res.bind_eq_ok] at h
      obtain ⟨a, ha, b, hb, h⟩ := h
      cases h
      simp only [Expr.fromProto, expr_exact reg base els b hs.2 hb,
        pairs_exact reg base ifs a hs.1 ha, Res.ok_bind]
  | .cast ty input fail, m, hs, h => by
      simp only [Expr.Sendable] at hs
      simp only [Expr.toProto, Res.bind_eq_ok] at h
      obtain ⟨a, ha, b, hb, h⟩ := h
      cases h
      simp only [Expr.fromProto, expr_exact reg base input b hs.2 hb, type_exact hs.1 ha,
        Res.ok_bind]
  | .dynParam ty ref, m, hs, h => by
      simp only [Expr.Sendable] at hs
      simp only [Expr.toProto, Res.bind_eq_ok] at h
      obtain ⟨a, ha, h⟩ := h
      cases h
      simp only [Expr.fromProto, type_exact hs ha, Res.ok_bind]
  | .switch mt ifs els, m, hs, h => by
      simp only [Expr.Sendable] at hs
      simp only [Expr.toProto, optToProto_sendable hs.2.2, Res.bind_eq_ok] at h
      obtain ⟨a, ha, b, hb, c, hc, h⟩ := h
      cases h
      simp only [Expr.fromProto, expr_exact reg base mt c hs.1 hc,
        expr_exact reg base els a hs.2.2 ha, cases_exact reg base ifs b hs.2.1 hb, Res.ok_bind]
  | .singularOr v os, m, hs, h => by
      simp only [Expr.Sendable] at hs
      simp only [Expr.toProto, Res.bind_eq_ok] at h
      obtain ⟨a, ha, b, hb, h⟩ := h
      cases h
      simp only [Expr.fromProto, expr_exact reg base v b hs.1 hb,
        exprs_exact reg base os a hs.2 ha, Res.ok_bind]
  | .multiOr v os, m, hs, h => by
      simp only [Expr.Sendable] at hs
      simp only [Expr.toProto, Res.bind_eq_ok] at h
      obtain ⟨a, ha, b, hb, h⟩ := h
      cases h
      simp only [Expr.fromProto, exprs_exact reg base v b hs.1 hb,
        rows_exact reg base os a hs.2 ha, Res.ok_bind]
  | .mapE n v kvs, m, hs, h => by
      simp only [Expr.Sendable] at hs
      simp only [Expr.toProto, Res.bind_eq_ok] at h
      obtain ⟨a, ha, h⟩ := h
      cases h
      have hd := pairs_exact reg base kvs a hs.2 ha
      cases a with
      | nil =>
        simp only [EPair.fromProtoList] at hd
        cases hd
        exact absurd rfl hs.1
      | cons x xs => simp only [Expr.fromProto, hd, Res.ok_bind]
  | .structE n v fs, m, hs, h => by
      simp only [Expr.Sendable] at hs
      simp only [Expr.toProto, Res.bind_eq_ok] at h
      obtain ⟨a, ha, h⟩ := h
      cases h
      simp only [Expr.fromProto, exprs_exact reg base fs a hs ha, Res.ok_bind]
  | .listE n v vs, m, hs, h => by
      simp only [Expr.Sendable] at hs
      simp only [Expr.toProto, Res.bind_eq_ok] at h
      obtain ⟨a, ha, h⟩ := h
      cases h
      have hd := exprs_exact reg base vs a hs.2 ha
      cases a with
      | nil =>
        simp only [Expr.fromProtoList] at hd
        cases hd
        exact absurd rfl hs.1
      | cons x xs => simp only [Expr.fromProto, hd, Res.ok_bind]
  | .scalar a args, m, hs, h => by
      simp only [Expr.Sendable] at hs
      simp only [Expr.toProto, Res.bind_eq_ok] at h
      obtain ⟨as, has, t, ht, h⟩ := h
      cases h
      simp only [Expr.fromProto, args_exact reg base args as hs.2.2 has, type_exact hs.2.1 ht,
        resolve_exact hs.1, Res.ok_bind]
  | .window a w args sorts parts, m, hs, h => by
      simp only [Expr.Sendable] at hs
      simp only [Expr.toProto, Res.bind_eq_ok] at h
      obtain ⟨as, has, ss, hss, ps, hps, t, ht, h⟩ := h
      cases h
      simp only [Expr.fromProto, args_exact reg base args as hs.2.2.1 has, type_exact hs.2.1 ht,
        sorts_exact reg base sorts ss hs.2.2.2.1 hss, exprs_exact reg base parts ps hs.2.2.2.2 hps,
        resolve_exact hs.1, winAttrs_exact, Res.ok_bind]
  | .lambda n v ps body, m, hs, h => by
      simp only [Expr.Sendable] at hs
      simp only [Expr.toProto, Res.bind_eq_ok] at h
      obtain ⟨a, ha, b, hb, h⟩ := h
      cases h
      simp only [Expr.fromProto, toProto_not_nil hb, types_exact ps a hs.2.1 ha, hs.1,
        expr_exact reg base body b hs.2.2 hb, Res.ok_bind, ne_eq, not_true_eq_false, if_false, Bool.false_eq_true]
  | .scalarSubquery r, m, hs, h => by
      simp only [Expr.Sendable] at hs
      simp only [Expr.toProto, Res.bind_eq_ok] at h
      obtain ⟨a, ha, h⟩ := h
      cases h
      simp only [Expr.fromProto, hs a ha, Res.ok_bind]
  | .inPredicate ns r, m, hs, h => by
      simp only [Expr.Sendable] at hs
      simp only [Expr.toProto, Res.bind_eq_ok] at h
      obtain ⟨b, hb, a, ha, h⟩ := h
      cases h
      simp only [Expr.fromProto, hs.2 a ha, exprs_exact reg base ns b hs.1 hb, Res.ok_bind]
  | .setPredicate op r, m, hs, h => by
      simp only [Expr.Sendable] at hs
      simp only [Expr.toProto, Res.bind_eq_ok] at h
      obtain ⟨a, ha, h⟩ := h
      cases h
      simp only [Expr.fromProto, hs a ha, Res.ok_bind]
  | .setComparison red cmp l none, m, hs, h => by
      simp [Expr.Sendable] at hs
  | .setComparison red cmp l (some r), m, hs, h => by
      simp only [Expr.Sendable] at hs
      simp only [Expr.toProto, Res.bind_eq_ok] at h
      obtain ⟨b, hb, a, ha, h⟩ := h
      cases h
      simp only [Expr.fromProto, hs.2 a ha, expr_exact reg base l b hs.1 hb, Res.ok_bind]
theorem exprs_exact (reg : Reg) (base : Option (List Ty)) : ∀ (es : List Expr) (ms : List ExprMsg),
    Expr.SendableList reg base es → Expr.toProtoList reg es = .ok ms →
    Expr.fromProtoList reg base ms = .ok es
  | [], ms, _, h => by simp only [Expr.toProtoList] at h; cases h; simp only [Expr.fromProtoList]
  | e :: es, ms, hs, h => by
      simp only [Expr.SendableList] at hs
      simp only [Expr.toProtoList, Res.bind_eq_ok] at h
      obtain ⟨a, ha, b, hb, h⟩ := h
      cases h
      simp only [Expr.fromProtoList, expr_exact reg base e a hs.1 ha,
        exprs_exact reg base es b hs.2 hb, Res.ok_bind]
theorem pairs_exact (reg : Reg) (base : Option (List Ty)) : ∀ (es : List EPair) (ms : List PairMsg),
    EPair.SendableList reg base es → EPair.toProtoList reg es = .ok ms →
    EPair.fromProtoList reg base ms = .ok es
  | [], ms, _, h => by simp only [EPair.toProtoList] at h; cases h; simp only [EPair.fromProtoList]
  | .mk x y :: es, ms, hs, h => by
      simp only [EPair.SendableList] at hs
      simp only [EPair.toProtoList, Res.bind_eq_ok] at h
      obtain ⟨a, ha, b, hb, c, hc, h⟩ := h
      cases h
      simp only [EPair.fromProtoList, expr_exact reg base x a hs.1 ha,
        expr_exact reg base y b hs.2.1 hb, pairs_exact reg base es c hs.2.2 hc, Res.ok_bind]
theorem cases_exact (reg : Reg) (base : Option (List Ty)) : ∀ (es : List ECase) (ms : List CaseMsg),
    ECase.SendableList reg base es → ECase.toProtoList reg es = .ok ms →
    ECase.fromProtoList reg base ms = .ok es
  | [], ms, _, h => by simp only [ECase.toProtoList] at h; cases h; simp only [ECase.fromProtoList]
  | .mk x y :: es, ms, hs, h => by
      simp only [ECase.SendableList] at hs
      simp only [ECase.toProtoList, Res.bind_eq_ok] at h
      obtain ⟨a, ha, b, hb, c, hc, h⟩ := h
      cases h
      simp only [ECase.fromProtoList, lit_exact hs.1 ha,
        expr_exact reg base y b hs.2.1 hb, cases_exact reg base es c hs.2.2 hc, Res.ok_bind]
theorem rows_exact (reg : Reg) (base : Option (List Ty)) : ∀ (es : List ERow) (ms : List RowMsg),
    ERow.SendableList reg base es → ERow.toProtoList reg es = .ok ms →
    ERow.fromProtoList reg base ms = .ok es
  | [], ms, _, h => by simp only [ERow.toProtoList] at h; cases h; simp only [ERow.fromProtoList]
  | .mk x :: es, ms, hs, h => by
      simp only [ERow.SendableList] at hs
      simp only [ERow.toProtoList, Res.bind_eq_ok] at h
      obtain ⟨a, ha, b, hb, h⟩ := h
      cases h
      simp only [ERow.fromProtoList, exprs_exact reg base x a hs.1 ha,
        rows_exact reg base es b hs.2 hb, Res.ok_bind]
theorem root_exact (reg : Reg) (base : Option (List Ty)) : ∀ (r : ERoot) (m : RootMsg),
    ERoot.Sendable reg base r → ERoot.toProto reg r = .ok m → ERoot.fromProto reg base m = .ok r
  | .rootReference, m, _, h => by
      simp only [ERoot.toProto] at h; cases h; simp only [ERoot.fromProto]
  | .outer n, m, _, h => by
      simp only [ERoot.toProto] at h; cases h; simp only [ERoot.fromProto]
  | .lambdaParam n, m, _, h => by
      simp only [ERoot.toProto] at h; cases h; simp only [ERoot.fromProto]
  | .expr e, m, hs, h => by
      simp only [ERoot.Sendable] at hs
      have hn := sendable_not_nil hs
      have he : ERoot.toProto reg (.expr e) =
          (Expr.toProto reg e >>= fun m => .ok (.expr m)) := by
        cases e <;> first | simp [Expr.isNil] at hn; done | simp only [ERoot.toProto]
      rw [he, Res.bind_eq_ok] at h
      obtain ⟨a, ha, h⟩ := h
      cases h
      simp [ERoot.fromProto, expr_exact reg base e a hs ha]
theorem arg_exact (reg : Reg) (base : Option (List Ty)) : ∀ (r : EArg) (m : ArgMsg),
    EArg.Sendable reg base r → EArg.toProto reg r = .ok m → EArg.fromProto reg base m = .ok r
  | .nil, m, hs, h => by simp [EArg.Sendable] at hs
  | .expr e, m, hs, h => by
      simp only [EArg.Sendable] at hs
      simp only [EArg.toProto, Res.bind_eq_ok] at h
      obtain ⟨a, ha, h⟩ := h
      cases h
      simp [EArg.fromProto, expr_exact reg base e a hs ha, ofExpr_sent ha]
  | .type t, m, hs, h => by
      simp only [EArg.Sendable] at hs
      simp only [EArg.toProto, typeArg_sendable hs, Res.bind_eq_ok] at h
      obtain ⟨a, ha, h⟩ := h
      cases h
      simp [EArg.fromProto, type_exact hs ha]
  | .enum s, m, _, h => by
      simp only [EArg.toProto] at h; cases h; simp only [EArg.fromProto]
theorem args_exact (reg : Reg) (base : Option (List Ty)) : ∀ (es : List EArg) (ms : List ArgMsg),
    EArg.SendableList reg base es → EArg.toProtoList reg es = .ok ms →
    EArg.fromProtoList reg base ms = .ok es
  | [], ms, _, h => by simp only [EArg.toProtoList] at h; cases h; simp only [EArg.fromProtoList]
  | e :: es, ms, hs, h => by
      simp only [EArg.SendableList] at hs
      simp only [EArg.toProtoList, Res.bind_eq_ok] at h
      obtain ⟨a, ha, b, hb, h⟩ := h
      cases h
      simp only [EArg.fromProtoList, arg_exact reg base e a hs.1 ha,
        args_exact reg base es b hs.2 hb, Res.ok_bind]
theorem sorts_exact (reg : Reg) (base : Option (List Ty)) : ∀ (es : List ESort) (ms : List SortMsg),
    ESort.SendableList reg base es → ESort.toProtoList reg es = .ok ms →
    ESort.fromProtoList reg base ms = .ok es
  | [], ms, _, h => by simp only [ESort.toProtoList] at h; cases h; simp only [ESort.fromProtoList]
  | .mk x k :: es, ms, hs, h => by
      simp only [ESort.SendableList] at hs
      simp only [ESort.toProtoList, Res.bind_eq_ok] at h
      obtain ⟨a, ha, b, hb, h⟩ := h
      cases h
      simp only [ESort.fromProtoList, expr_exact reg base x a hs.1 ha, sortKind_exact k hs.2.1,
        sorts_exact reg base es b hs.2.2 hb, Res.ok_bind]
end

end Verif
