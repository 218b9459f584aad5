import Verif.Model.GoMap
import Mathlib.Data.List.Nodup
/-! # Lemmas about Go maps -/

namespace Verif.GoMap
variable {K V : Type} [DecidableEq K]

theorem get_eq_some (m : GoMap K V) (k : K) (v : V) : m.get k = some v ↔ (k, v) ∈ m.entries := by
  unfold get
  constructor
  · intro h
    obtain ⟨p, hp, rfl⟩ := Option.map_eq_some_iff.1 h
    have h1 := List.find?_some hp
    have h2 := List.mem_of_find?_eq_some hp
    simp at h1
    subst h1
    exact h2
  · intro h
    cases hf : m.entries.find? (fun p => p.1 = k) with
    | none =>
      rw [List.find?_eq_none] at hf
      exact absurd (by simp) (hf _ h)
    | some p =>
      have h1 := List.find?_some hf
      have h2 := List.mem_of_find?_eq_some hf
      simp at h1
      have := List.inj_on_of_nodup_map m.nodup h2 h h1
      simp [this]

theorem get_eq_none (m : GoMap K V) (k : K) : m.get k = none ↔ ∀ v, (k, v) ∉ m.entries := by
  constructor
  · intro h v hv
    rw [← get_eq_some, h] at hv
    cases hv
  · intro h
    cases hg : m.get k with
    | none => rfl
    | some v => exact absurd ((get_eq_some _ _ _).1 hg) (h v)

@[simp] theorem get_empty (k : K) : (empty : GoMap K V).get k = none := rfl
@[simp] theorem len_empty : (empty : GoMap K V).len = 0 := rfl
@[simp] theorem entries_empty : (empty : GoMap K V).entries = [] := rfl

theorem mem_del (m : GoMap K V) (k k' : K) (v : V) :
    (k', v) ∈ (m.del k).entries ↔ k' ≠ k ∧ (k', v) ∈ m.entries := by
  simp [del, and_comm]

theorem mem_set (m : GoMap K V) (k k' : K) (v v' : V) :
    (k', v') ∈ (m.set k v).entries ↔ (k' = k ∧ v' = v) ∨ (k' ≠ k ∧ (k', v') ∈ m.entries) := by
  simp [set, mem_del, or_comm]

theorem get_set (m : GoMap K V) (k k' : K) (v : V) :
    (m.set k v).get k' = if k' = k then some v else m.get k' := by
  split
  · next h => subst h; rw [get_eq_some, mem_set]; simp
  · next h =>
    cases hg : m.get k' with
    | none =>
      rw [get_eq_none] at hg ⊢
      intro x hx
      rw [mem_set] at hx
      rcases hx with hx | hx
      · exact h hx.1
      · exact hg x hx.2
    | some x =>
      rw [get_eq_some] at hg ⊢
      rw [mem_set]
      exact .inr ⟨h, hg⟩

theorem get_del (m : GoMap K V) (k k' : K) :
    (m.del k).get k' = if k' = k then none else m.get k' := by
  split
  · next h =>
    subst h; rw [get_eq_none]; intro v hv; rw [mem_del] at hv; exact hv.1 rfl
  · next h =>
    cases hg : m.get k' with
    | none =>
      rw [get_eq_none] at hg ⊢
      intro x hx
      rw [mem_del] at hx
      exact hg x hx.2
    | some x =>
      rw [get_eq_some] at hg ⊢
      rw [mem_del]
      exact ⟨h, hg⟩

theorem del_of_none (m : GoMap K V) (k : K) (h : m.get k = none) : (m.del k).entries = m.entries := by
  simp only [del, List.filter_eq_self]
  rintro ⟨a, b⟩ hab
  simp only [ne_eq, decide_eq_true_eq]
  rintro rfl
  exact (get_eq_none _ _).1 h b hab

theorem len_set_new (m : GoMap K V) (k : K) (v : V) (h : m.get k = none) :
    (m.set k v).len = m.len + 1 := by
  simp [set, len, del_of_none m k h]

/-- permuted entries have the same lookups -/
theorem find_perm (m : GoMap K V) (o : List (K × V)) (h : o.Perm m.entries) (k : K) (v : V) :
    (k, v) ∈ o ↔ m.get k = some v := by
  rw [get_eq_some, h.mem_iff]

theorem ext_get {m m' : GoMap K V} (h : ∀ k, m.get k = m'.get k) :
    ∀ p, p ∈ m.entries ↔ p ∈ m'.entries := by
  rintro ⟨k, v⟩
  rw [← get_eq_some, ← get_eq_some, h]

end Verif.GoMap
