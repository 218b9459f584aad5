import Verif.Spec.PlanProto
import Verif.Props.RelProto
import Verif.Lemmas.Plan
import Verif.Lemmas.Aggregate
/-!
# Properties of plans as messages (C76)
-/

namespace Verif

/-! ## C76 -/

/-- **C76, in full.** -/
def C76_statement : Prop := ∀ (reg : RelReg) (p : Plan) (m : PlanMsg RelMsg),
  p.toProto (Rel.toProto reg.toReg) = .ok m → Plan.fromProto (Rel.fromProto reg) m = .ok p

theorem relation_exact {reg : RelReg} {r : Relation} {m : PlanRelMsg RelMsg} (hs : r.Sendable reg)
    (h : r.toProto (Rel.toProto reg.toReg) = .ok m) :
    Relation.fromProto (Rel.fromProto reg) m = .ok r := by
  rcases hs with ⟨x, rfl, hx⟩ | ⟨x, names, rfl, hx, hn⟩
  · simp only [Relation.toProto, Res.bind_eq_ok] at h
    obtain ⟨a, ha, h⟩ := h
    cases h
    simp only [Relation.fromProto, rel_exact reg x a hx ha, Res.ok_bind]
  · simp only [Relation.toProto, Res.bind_eq_ok] at h
    obtain ⟨a, ha, h⟩ := h
    cases h
    simp only [Relation.fromProto, rel_exact reg x a hx ha, Res.ok_bind]
    cases hsup : isRecordTypeSupported x with
    | false => simp
    | true =>
      obtain ⟨ts, ht, hl⟩ := hn hsup
      rw [labelsFields_length] at hl
      simp [ht, validateRootNames, hl]

/-- **C76, round trip.** A plan that can be carried is read back with the same relations in the same
order, the same root names, parameter bindings and expected type URLs. (Missing: see `Rel.Sendable`
and `Lit.Sendable`; a relation stored beside a root, C43.) -/
theorem C76_roundtrip_partial (reg : RelReg) (p : Plan) (m : PlanMsg RelMsg) (hs : p.Sendable reg)
    (h : p.toProto (Rel.toProto reg.toReg) = .ok m) :
    Plan.fromProto (Rel.fromProto reg) m = .ok p := by
  simp only [Plan.toProto, Res.bind_eq_ok] at h
  obtain ⟨rels, hr, bs, hb, h⟩ := h
  cases h
  have h1 := mapL_exact (g := Relation.fromProto (Rel.fromProto reg)) p.relations rels
    (fun r hr m hm => relation_exact (hs.1 r hr) hm) hr
  have h2 := mapL_exact
    (g := fun b : UInt32 × PLit => literalFromProto b.2 >>= fun l => .ok (Binding.mk b.1 l))
    p.bindings bs (fun b hb m hm => by
      simp only [Res.bind_eq_ok] at hm
      obtain ⟨a, ha, hm⟩ := hm
      cases hm
      simp only [lit_exact (hs.2 b hb) ha, Res.ok_bind]) hb
  simp only [Plan.fromProto, h1, Res.ok_bind, h2]

/-- **C76, writing.** The message of any plan has one entry for each relation, in order, saying the
same; one entry for each binding, with its anchor and its written value; and the same URLs. -/
theorem C76_wire {M : Type} (enc : Rel → Res M) (p : Plan) (m : PlanMsg M)
    (h : p.toProto enc = .ok m) :
    List.Forall₂ (Relation.Written enc) p.relations m.relations ∧
    List.Forall₂ (fun (b : Binding) (c : UInt32 × PLit) => c.1 = b.anchor ∧
      literalToProto b.value = .ok c.2) p.bindings m.bindings ∧ m.urls = p.urls := by
  simp only [Plan.toProto, Res.bind_eq_ok] at h
  obtain ⟨rels, hr, bs, hb, h⟩ := h
  cases h
  refine ⟨(mapL_forall₂.1 hr).imp fun r m hm => ?_, (mapL_forall₂.1 hb).imp fun b c hc => ?_,
    rfl⟩
  · unfold Relation.toProto at hm
    split at hm
    · rename_i root hroot
      simp only [Res.bind_eq_ok] at hm
      obtain ⟨a, ha, hm⟩ := hm
      cases hm
      exact ⟨root.input, a, some root.names, by simp [Relation.says, hroot], rfl, ha⟩
    · rename_i hroot
      split at hm
      · rename_i x hx
        simp only [Res.bind_eq_ok] at hm
        obtain ⟨a, ha, hm⟩ := hm
        cases hm
        exact ⟨x, a, none, by simp [Relation.says, hroot, hx], rfl, ha⟩
      · cases hm
  · simp only [Res.bind_eq_ok] at hc
    obtain ⟨a, ha, hc⟩ := hc
    cases hc
    exact ⟨rfl, ha⟩

/-- **C76, built plans.** A plan built from a root that can be carried, without further relations, is
read back as it was built. -/
theorem C76_built_partial (reg : RelReg) (r : Rel) (names urls : List String) (bs : List Binding)
    (p : Plan) (m : PlanMsg RelMsg) (hr : r.Sendable reg) (hb : ∀ b ∈ bs, b.value.Sendable)
    (hp : planWithBindings (some r) names urls bs [] = .ok p)
    (h : p.toProto (Rel.toProto reg.toReg) = .ok m) :
    Plan.fromProto (Rel.fromProto reg) m = .ok p := by
  rw [planWithBindings_ok] at hp
  obtain ⟨r', ts, hr', hts, hl, _, hs, h1, h2⟩ := hp
  cases hr'
  simp only [List.length_nil, List.replicate_zero, storeOthers] at hs
  cases hs' : p.relations with
  | nil => rw [hs'] at hs; cases hs
  | cons a l =>
    rw [hs'] at hs
    cases hs
    refine C76_roundtrip_partial reg p m ⟨?_, ?_⟩ h
    · intro x hx
      rw [hs'] at hx
      simp only [List.mem_singleton] at hx
      subst hx
      exact .inr ⟨r, names, rfl, hr, fun _ => ⟨ts, hts, hl⟩⟩
    · rw [h1]; exact hb

/-- a plan with a root with two names, a write and a parameter binding -/
def exPlan : Plan :=
  ⟨[⟨some ⟨exHash, ["a", "b"]⟩, none⟩, ⟨none, some exTree⟩], [⟨7, exLit7⟩], ["url"]⟩

theorem exPlan_sendable : exPlan.Sendable exRelReg := by
  constructor
  · intro r hr
    simp only [exPlan, List.mem_cons, List.not_mem_nil, or_false] at hr
    rcases hr with rfl | rfl
    · refine .inr ⟨_, _, rfl, exHash_sendable, fun _ => ⟨_, exHash_type, ?_⟩⟩
      rw [labelsFields_length]
      simp [depthFirstNameCount, nestedNameCount]
    · exact .inl ⟨_, rfl, exTree_sendable⟩
  · intro b hb
    simp only [exPlan, List.mem_singleton] at hb
    subst hb
    exact exLit7_sendable

/-- **C76, negation.** A relation stored beside a root is not written (C43), so the plan read back
lacks it. -/
theorem C76_negation : ¬ C76_statement := by
  intro h
  obtain ⟨m, hm⟩ := exInsert_written
  let p : Plan := ⟨[⟨some ⟨exInsert, []⟩, some exInsert⟩], [], []⟩
  have hp : p.toProto (Rel.toProto exRelReg.toReg) = .ok ⟨[.root m []], [], []⟩ := by
    simp [p, Plan.toProto, Relation.toProto, Res.mapL_cons, Res.mapL_nil, hm]
  have := h exRelReg p _ hp
  simp only [p, Plan.fromProto, Relation.fromProto, Res.mapL_cons, Res.mapL_nil,
    Res.bind_eq_ok] at this
  obtain ⟨rels, ⟨a, ⟨r, _, _, _, ha⟩, l, _, hrels⟩, _, _, this⟩ := this
  cases ha
  cases hrels
  simp at this

end Verif
