import Verif.Lemmas.NoPanicRel
import Verif.Model.Plan

/-! Lemmas for C83: plans. -/

namespace Verif

theorem ext_unsupported (reg : RelReg) (hd : reg.NoDecoders) (m : RelMsg) (hu : m.SchemaUnused)
    {r : Rel} (h : Rel.fromProto reg m = .ok r) : isRecordTypeSupported r = false := by
  cases m <;> simp only [RelMsg.SchemaUnused] at hu
  case extSingle c i d =>
    rw [Rel.fromProto] at h
    obtain ⟨x, -, h⟩ := Res.bind_eq_ok.1 h
    obtain ⟨d', h1, h⟩ := Res.bind_eq_ok.1 h
    obtain ⟨c', -, h⟩ := Res.bind_eq_ok.1 h
    have := (fine_ext reg hd d).2 _ h1
    subst this; cases h; rfl
  case extLeaf c d =>
    rw [Rel.fromProto] at h
    obtain ⟨d', h1, h⟩ := Res.bind_eq_ok.1 h
    obtain ⟨c', -, h⟩ := Res.bind_eq_ok.1 h
    have := (fine_ext reg hd d).2 _ h1
    subst this; cases h; rfl
  case extMulti c i d =>
    rw [Rel.fromProto] at h
    obtain ⟨x, -, h⟩ := Res.bind_eq_ok.1 h
    obtain ⟨d', h1, h⟩ := Res.bind_eq_ok.1 h
    obtain ⟨c', -, h⟩ := Res.bind_eq_ok.1 h
    have := (fine_ext reg hd d).2 _ h1
    subst this; cases h; rfl
  case write c k s op i output =>
    rw [Rel.fromProto] at h
    obtain ⟨x, -, h⟩ := Res.bind_eq_ok.1 h
    obtain ⟨ns, -, h⟩ := Res.bind_eq_ok.1 h
    obtain ⟨c', -, h⟩ := Res.bind_eq_ok.1 h
    split at h
    · cases k with
      | named names a => cases h; rfl
      | extTable => cases h
      | unset => cases h; rfl
    · cases h

theorem planRel_safe (reg : RelReg) (hd : reg.NoDecoders) (m : PlanRelMsg RelMsg)
    (h : m.Safe reg.toReg) :
    Fine (Relation.fromProto (Rel.fromProto reg) m) (fun _ => True) := by
  cases m with
  | rel m => exact fine_bind (rel_safe reg hd m h) (fun r _ _ => fine_ok trivial)
  | root m names =>
    refine fine_bind (rel_safe reg hd m h.1) (fun r hr hc => ?_)
    refine fine_bind (P := fun _ => True) ?_ (fun _ _ _ => fine_ok trivial)
    split
    · rename_i hs
      rcases h.2 with h2 | h2
      · rw [ext_unsupported reg hd m h2 hr] at hs; cases hs
      · refine fine_bind (fine_recordType (hc h2)) (fun ts _ _ => ?_)
        unfold validateRootNames
        split
        · exact fine_err
        · exact fine_ok trivial
    · exact fine_ok trivial
  | unset => exact fine_err

theorem plan_safe (reg : RelReg) (hd : reg.NoDecoders) (m : PlanMsg RelMsg) (h : m.Safe reg.toReg) :
    Plan.fromProto (Rel.fromProto reg) m ≠ .panic := by
  refine (fine_bind (fine_mapL m.relations fun r hr => planRel_safe reg hd r (h.1 r hr))
    (fun _ _ _ => ?_) : Fine _ (fun _ => True)).1
  refine fine_bind (fine_mapL (P := fun _ => True) m.bindings fun b hb => ?_)
    (fun _ _ _ => fine_ok trivial)
  exact fine_bind (fine_lit (h.2 b hb)) (fun _ _ _ => fine_ok trivial)

end Verif
