import Verif.Spec.Extended
import Verif.Lemmas.RelProto
import Verif.Lemmas.ExtSet
/-!
# Sets with the same contents make the same registry
-/

namespace Verif

theorem GoMap.perm_of_get {K V : Type} [DecidableEq K] {a b : GoMap K V} (h : ∀ k, a.get k = b.get k) :
    a.entries.Perm b.entries := by
  have ha := List.Nodup.of_map _ a.nodup
  have hb := List.Nodup.of_map _ b.nodup
  rw [List.perm_ext_iff_of_nodup ha hb]
  rintro ⟨k, v⟩
  rw [← GoMap.get_eq_some, ← GoMap.get_eq_some, h]

/-- the sets have the same contents -/
structure ExtSet.Same (s t : ExtSet) : Prop where
  decode : ∀ k a, s.decode k a = t.decode k a
  anchor : ∀ k id, (s.table k).byId.get id = (t.table k).byId.get id
  urns : ∀ a, s.urns.get a = t.urns.get a

theorem getAnchor_same {s t : ExtSet} (h : s.Same t) (k : ExtKind) (id : ExtId) :
    (s.getAnchor k id >>= fun r => .ok r.1) = (t.getAnchor k id >>= fun r => Res.ok r.1) := by
  have hany : s.urns.entries.any (fun p => decide (p.2 = id.urn)) =
      t.urns.entries.any (fun p => decide (p.2 = id.urn)) :=
    (GoMap.perm_of_get h.urns).any_eq
  have hlen : s.urns.len = t.urns.len := (GoMap.perm_of_get h.urns).length_eq
  have hl : (s.table k).byId.len = (t.table k).byId.len := (GoMap.perm_of_get (h.anchor k)).length_eq
  unfold ExtSet.getAnchor
  rw [h.anchor]
  cases (t.table k).byId.get id with
  | some a => rfl
  | none =>
    simp only [addOrGetURN, hany, hlen, h.urns, hl]
    cases t.urns.entries.any (fun p => decide (p.2 = id.urn)) with
    | true => rfl
    | false => cases t.urns.get (UInt32.ofNat t.urns.len + 1) <;> rfl

theorem ofSet_same {s t : ExtSet} (h : s.Same t) (rest : Reg) (c : Collection) :
    Reg.ofSet rest c s = Reg.ofSet rest c t := by
  have h1 : s.decode .func = t.decode .func := funext (h.decode .func)
  have h2 : ∀ k, s.declarationOf c k = t.declarationOf c k := by
    intro k
    funext a
    simp only [ExtSet.declarationOf, ExtSet.lookupFunc, h1]
  have h3 : ∀ id, (s.customCall id >>= fun r => .ok r.1) = (t.customCall id >>= fun r => Res.ok r.1) := by
    intro id
    unfold ExtSet.customCall
    cases newFuncVariant .scalar id with
    | err => rfl
    | panic => rfl
    | ok v =>
      simp only [Res.ok_bind]
      cases v.id with
      | err => rfl
      | panic => rfl
      | ok id' =>
        simp only [Res.ok_bind]
        have := getAnchor_same h .func id'
        cases hs : s.getAnchor .func id' <;> cases ht : t.getAnchor .func id' <;> rw [hs, ht] at this <;>
          simp_all
  unfold Reg.ofSet
  simp only [h1, h2, h3]

theorem exprRef_exact {reg : Reg} {base : Option (List Ty)} {r : ExprRef} {m : ExprRefMsg}
    (hs : r.Sendable reg base) (h : r.toProto reg = .ok m) : ExprRef.fromProto reg base m = .ok r := by
  obtain ⟨names, e, f⟩ := r
  obtain ⟨h1, h2⟩ := hs
  simp only at h1 h2
  unfold ExprRef.toProto at h
  rcases h1 with rfl | ⟨h1, rfl⟩
  · simp only [Expr.isNil, if_true] at h
    cases f with
    | none =>
      cases h
      rfl
    | some f =>
      simp only [Res.bind_eq_ok] at h
      obtain ⟨a, ha, h⟩ := h
      cases h
      obtain ⟨d, t, as, ss⟩ := h2 f rfl
      simp only [ExprRef.fromProto, agg_exact d t as ss ha, Res.ok_bind, ExprRef.setMeasure]
  · have hn : e.isNil = false := by cases e <;> first | rfl | simp [Expr.Sendable] at h1
    simp only [hn, Bool.false_eq_true, if_false, Res.bind_eq_ok] at h
    obtain ⟨a, ha, h⟩ := h
    cases h
    simp only [ExprRef.fromProto, expr_exact reg base e a h1 ha, Res.ok_bind, ExprRef.setExpr]

end Verif
