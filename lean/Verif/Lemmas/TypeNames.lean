import Verif.Spec.TypeNames
/-! # Helper lemmas: names of a schema -/

namespace Verif

theorem tokNames_append (a b : List Tok) : tokNames (a ++ b) = tokNames a ++ tokNames b := by
  induction a with
  | nil => rfl
  | cons x xs ih => cases x <;> simp [tokNames, ih]

theorem take_drop_add (l : List α) (i a b : Nat) :
    (l.drop i).take (a + b) = (l.drop i).take a ++ (l.drop (i + a)).take b := by
  rw [← List.drop_drop, List.take_add]

/-- writing from index `i` needing `c` names -/
def WritesExactly (names : List String) (r : Res (List Tok × Nat)) (i c : Nat) : Prop :=
  (i + c ≤ names.length → ∃ o, r = .ok (o, i + c) ∧ tokNames o = (names.drop i).take c) ∧
  (i ≤ names.length → names.length < i + c → r = .panic)

theorem WritesExactly.seq {names : List String} {r1 : Res (List Tok × Nat)}
    {f : List Tok × Nat → Res (List Tok × Nat)} {i c1 c2 : Nat}
    (h1 : WritesExactly names r1 i c1)
    (h2 : ∀ o1, tokNames o1 = (names.drop i).take c1 → i + c1 ≤ names.length →
      ((i + c1 + c2 ≤ names.length → ∃ o, f (o1, i + c1) = .ok (o, i + c1 + c2) ∧
          tokNames o = (names.drop i).take (c1 + c2)) ∧
        (names.length < i + c1 + c2 → f (o1, i + c1) = .panic))) :
    WritesExactly names (r1 >>= f) i (c1 + c2) := by
  constructor
  · intro h
    obtain ⟨o1, e1, e2⟩ := h1.1 (by omega)
    obtain ⟨o, e3, e4⟩ := (h2 o1 e2 (by omega)).1 (by omega)
    exact ⟨o, by rw [e1, Res.ok_bind, e3, Nat.add_assoc], e4⟩
  · intro hi h
    by_cases hc : i + c1 ≤ names.length
    · obtain ⟨o1, e1, e2⟩ := h1.1 hc
      rw [e1, Res.ok_bind]
      exact (h2 o1 e2 hc).2 (by omega)
    · rw [h1.2 hi (by omega)]; rfl

mutual
theorem writeType_exact (names : List String) : ∀ (t : Ty) (i : Nat),
    WritesExactly names (writeType names t i) i (nestedNameCount t)
  | .struct n v ts, i => by
    have := writeFields_exact names ts true i
    simp only [writeType, nestedNameCount]
    refine WritesExactly.seq (c2 := 0) this ?_
    intro o1 ho hle
    refine ⟨fun _ => ⟨_, rfl, ?_⟩, by omega⟩
    simp [tokNames, tokNames_append, ho]
  | .map n v k e, i => by
    have h1 := writeType_exact names k i
    simp only [writeType, nestedNameCount]
    refine WritesExactly.seq h1 ?_
    intro o1 ho hle
    have h2 := writeType_exact names e (i + nestedNameCount k)
    constructor
    · intro h
      obtain ⟨o2, e1, e2⟩ := h2.1 h
      refine ⟨_, by simp only [e1, Res.ok_bind]; rfl, ?_⟩
      simp [tokNames, tokNames_append, ho, e2, take_drop_add]
    · intro h
      simp [h2.2 hle h]
  | .list n v t, i => by
    have := writeType_exact names t i
    simp only [writeType, nestedNameCount]
    refine WritesExactly.seq (c2 := 0) this ?_
    intro o1 ho hle
    refine ⟨fun _ => ⟨_, rfl, ?_⟩, by omega⟩
    simp [tokNames, tokNames_append, ho]
  | .prim .., i => by simp [writeType, nestedNameCount, WritesExactly, tokNames]
  | .fixed .., i => by simp [writeType, nestedNameCount, WritesExactly, tokNames]
  | .decimal .., i => by simp [writeType, nestedNameCount, WritesExactly, tokNames]
  | .prec .., i => by simp [writeType, nestedNameCount, WritesExactly, tokNames]
  | .intervalCompound .., i => by simp [writeType, nestedNameCount, WritesExactly, tokNames]
  | .intervalYearToMonth .., i => by simp [writeType, nestedNameCount, WritesExactly, tokNames]
  | .enum .., i => by simp [writeType, nestedNameCount, WritesExactly, tokNames]
  | .func .., i => by simp [writeType, nestedNameCount, WritesExactly, tokNames]
  | .udt .., i => by simp [writeType, nestedNameCount, WritesExactly, tokNames]
theorem writeFields_exact (names : List String) : ∀ (ts : List Ty) (first : Bool) (i : Nat),
    WritesExactly names (writeFields names first ts i) i (depthFirstNameCount ts)
  | [], first, i => by simp [writeFields, depthFirstNameCount, WritesExactly, tokNames]
  | t :: ts, first, i => by
    simp only [writeFields, depthFirstNameCount]
    have h1 := writeType_exact names t (i + 1)
    have h2 := writeFields_exact names ts false (i + 1 + nestedNameCount t)
    constructor
    · intro h
      have hi : i < names.length := by omega
      obtain ⟨o1, e1, e2⟩ := h1.1 (by omega)
      obtain ⟨o2, e3, e4⟩ := h2.1 (by omega)
      refine ⟨(if first then [] else [.lit ", "]) ++ .name names[i] :: .lit ": " :: o1 ++ o2,
        ?_, ?_⟩
      · simp only [nameAt, List.getElem?_eq_getElem hi, Res.ok_bind, e1, e3]
        rw [show i + (1 + nestedNameCount t + depthFirstNameCount ts)
          = i + 1 + nestedNameCount t + depthFirstNameCount ts by omega]
      · have ht : (names.drop i).take 1 = [names[i]] := by
          rw [List.drop_eq_getElem_cons hi]; rfl
        rw [take_drop_add, take_drop_add, ← Nat.add_assoc, ← e2, ← e4, ht]
        cases first <;> simp [tokNames, tokNames_append]
    · intro hle h
      by_cases hi : i < names.length
      · simp only [nameAt, List.getElem?_eq_getElem hi, Res.ok_bind]
        by_cases hc : i + 1 + nestedNameCount t ≤ names.length
        · obtain ⟨o1, e1, e2⟩ := h1.1 hc
          simp only [e1, Res.ok_bind]
          rw [h2.2 hc (by omega)]; rfl
        · rw [h1.2 (by omega) (by omega)]; rfl
      · simp [nameAt, List.getElem?_eq_none (Nat.le_of_not_lt hi)]
end

end Verif
