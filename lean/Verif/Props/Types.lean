import Verif.Lemmas.Types
import Verif.Lemmas.TypeNames
/-!
# Properties of types (C01 – C05)
-/

namespace Verif

/-! ## C01 -/

/-- **C01.** Every type that `TypeToProto` serialises, with time precisions in 0..9, is read back
by `TypeFromProto` as the same type, and `Equals` says so in both directions. -/
theorem C01_type_proto_roundtrip (t : Ty) (m : PTy) (hp : t.PrecisionsOk)
    (h : typeToProto t = .ok m) :
    ∃ t', typeFromProto m = .ok t' ∧ t.Same t' ∧
      t.equals t' = .ok true ∧ t'.equals t = .ok true := by
  obtain ⟨t', h1, h2, h3⟩ := type_from_to t m hp h
  have hs : t.erase = t'.erase := by rw [h2, h3]
  have ht : t.PlanType := toProto_planType t m h
  exact ⟨t', h1, hs, (equals_true_iff ht).2 hs,
    (equals_true_iff (erase_planType t t' hs ht)).2 hs.symm⟩

/-- A nested type exercising every family meets C01's hypotheses. -/
example : let t : Ty := .struct 2 7 [.prim .i32 1 3, .list 1 0 (.decimal 2 5 3 38),
      .map 2 0 (.fixed .varChar 2 1 10) (.intervalCompound false 1 9 6),
      .func 2 [.prec .precisionTimestampTz 1 0 9] (.prim .boolean 2 0),
      .udt 1 2 3 [.dataType (.prec .intervalDay 1 4 0), .integer 5, .null, .enum "e"]]
    t.PrecisionsOk ∧ ∃ m, typeToProto t = .ok m := by
  refine ⟨?_, _, rfl⟩
  simp [Ty.PrecisionsOk, Ty.PrecisionsOkList, TParam.PrecisionsOkList, TParam.PrecisionsOk,
    ValidPrecision]

/-! ## C57 -/

/-- **C57.** The message written for a type names the same kind and carries the same nullability,
variation, length, scale, precision and type reference. Both directions of the conversion are
covered, so a consistent mix-up of two kinds is excluded. -/
theorem C57_wire_kind (t : Ty) (m : PTy) :
    (typeToProto t = .ok m → m.kindName = t.kindName ∧ m.scalars = t.scalars) ∧
    (typeFromProto m = .ok t → t.kindName = m.kindName ∧ t.scalars = m.scalars) := by
  constructor
  · intro h
    cases t with
    | prim k n v => cases h; cases k <;> exact ⟨rfl, rfl⟩
    | fixed k n v l => cases k <;> (cases h; exact ⟨rfl, rfl⟩)
    | prec k n v l => cases k <;> (cases h; exact ⟨rfl, rfl⟩)
    | intervalCompound b n v p => cases b <;> cases h; exact ⟨rfl, rfl⟩
    | _ =>
      simp only [typeToProto, Res.bind_eq_ok, reduceCtorEq] at h <;> first
        | (cases h; exact ⟨rfl, rfl⟩)
        | (obtain ⟨_, _, h⟩ := h; cases h; exact ⟨rfl, rfl⟩)
        | (obtain ⟨_, _, _, _, h⟩ := h; cases h; exact ⟨rfl, rfl⟩)
  · intro h
    have hp : ∀ p q, precisionOrPanic p = .ok q → q = p := by
      intro p q hq
      unfold precisionOrPanic protoToTimePrecision at hq
      split at hq
      · rename_i heq
        split at heq
        · cases heq
        · cases heq; cases hq; rfl
      · cases hq
    cases m with
    | prim k n v => cases h; cases k <;> exact ⟨rfl, rfl⟩
    | intervalDay n v p =>
      cases p with
      | none => cases h; exact ⟨rfl, rfl⟩
      | some p =>
        simp only [typeFromProto, Res.bind_eq_ok] at h
        obtain ⟨q, h1, h2⟩ := h
        cases hp _ _ h1; cases h2; exact ⟨rfl, rfl⟩
    | _ =>
      simp only [typeFromProto, Res.bind_eq_ok, reduceCtorEq] at h <;> first
        | (cases h; exact ⟨rfl, rfl⟩)
        | (obtain ⟨q, h1, h2⟩ := h; cases hp _ _ h1; cases h2; exact ⟨rfl, rfl⟩)
        | (obtain ⟨_, _, h⟩ := h; cases h; exact ⟨rfl, rfl⟩)
        | (obtain ⟨_, _, _, _, h⟩ := h; cases h; exact ⟨rfl, rfl⟩)

example : ∃ m, typeToProto (.fixed .varChar 1 2 30) = .ok m ∧ m.kindName = "varchar" ∧
    m.scalars = [1, 2, 30] := ⟨_, rfl, rfl, rfl⟩

/-! ## C02 -/

/-- **C02 (full statement, false).** Every accepted message is written back unchanged (up to the
default interval_day precision). -/
def C02_statement : Prop :=
  ∀ (m : PTy) (t : Ty), typeFromProto m = .ok t → typeToProto t = .ok m.normalise

/-- **C02, partial.** Holds for messages without interval_compound and without unset type
parameters. Missing: those two, for which the code panics (`C02_negation`). -/
theorem C02_type_from_to_partial (m : PTy) (t : Ty) (hm : m.NoCompound)
    (h : typeFromProto m = .ok t) : typeToProto t = .ok m.normalise :=
  type_to_from m t hm h

example : let m : PTy := .list 1 2 (.struct 2 0 [.intervalDay 1 3 none, .prim .timestampTz 2 1])
    m.NoCompound ∧ ∃ t, typeFromProto m = .ok t :=
  ⟨by simp [PTy.NoCompound, PTy.NoCompoundList], _, rfl⟩

/-- **C02 is false of the code**: a list of interval_compound read from protobuf cannot be written
back; `TypeToProto` panics. -/
theorem C02_negation : ¬ C02_statement := by
  intro h
  have := h (.list 1 0 (.intervalCompound 1 0 6)) _ rfl
  simp [typeToProto] at this

/-- An interval_compound type panics wherever it was read from protobuf. -/
theorem C02_compound_panics (n : Nullability) (v : UInt32) (p : Int32) (hp : ValidPrecision p) :
    ∃ t, typeFromProto (.intervalCompound n v p) = .ok t ∧ typeToProto t = .panic :=
  ⟨.intervalCompound true n v p, by simp [typeFromProto, precisionOrPanic_valid hp], rfl⟩

example : ValidPrecision 6 := by simp [ValidPrecision]

/-! ## C03 -/

/-- **C03 (exactness).** `Equals` returns (never panics) and answers true exactly when the two
types are the same. -/
theorem C03_equals_exact (a b : Ty) (ha : a.PlanType) :
    (a.equals b = .ok true ∧ a.Same b) ∨ (a.equals b = .ok false ∧ ¬ a.Same b) := by
  obtain ⟨r, h1, h2⟩ := equals_spec a b ha
  cases r
  · exact .inr ⟨h1, by simpa [Ty.Same] using h2⟩
  · exact .inl ⟨h1, by simpa [Ty.Same] using h2⟩

/-- **C03.** `Equals` is reflexive, symmetric and transitive on plan types. -/
theorem C03_equals_equivalence :
    (∀ a : Ty, a.PlanType → a.equals a = .ok true) ∧
    (∀ a b : Ty, a.PlanType → b.PlanType → a.equals b = b.equals a) ∧
    (∀ a b c : Ty, a.PlanType → b.PlanType → c.PlanType →
      a.equals b = .ok true → b.equals c = .ok true → a.equals c = .ok true) := by
  refine ⟨fun a ha => (equals_true_iff ha).2 rfl, fun a b ha hb => ?_,
    fun a b c ha hb hc h1 h2 => ?_⟩
  · rcases C03_equals_exact a b ha with ⟨h, s⟩ | ⟨h, s⟩ <;>
      rcases C03_equals_exact b a hb with ⟨h', s'⟩ | ⟨h', s'⟩
    · rw [h, h']
    · exact absurd (Eq.symm s) s'
    · exact absurd (Eq.symm s') s
    · rw [h, h']
  · exact (equals_true_iff ha).2 (((equals_true_iff ha).1 h1).trans ((equals_true_iff hb).1 h2))

/-- Distinct and equal plan types exist (value and pointer forms of interval_compound nested in a
list are the same type). -/
example : (Ty.list 1 0 (.intervalCompound true 1 2 6)).PlanType ∧
    (Ty.list 1 0 (.intervalCompound true 1 2 6)).equals (.list 1 0 (.intervalCompound false 1 2 6))
      = .ok true ∧
    (Ty.list 1 0 (.prim .i32 1 2)).equals (.list 1 0 (.prim .i32 2 2)) = .ok false :=
  ⟨by simp [Ty.PlanType], by simp [Ty.equals], by simp [Ty.equals]⟩

/-- Outside plan types symmetry fails: a declared enum equals `CommonEnumType` but not
conversely. -/
theorem C03_enum_asymmetric :
    ∃ a b : Ty, a.equals b = .ok true ∧ b.equals a = .ok false :=
  ⟨.enum false 0 0 "e" ["x"], .enum true 0 0 "" [], by simp [Ty.equals], by simp [Ty.equals]⟩

/-! ## C04 -/

/-- **C04 (returned value).** The result has the requested nullability and the receiver's variation
reference; setting the nullability back yields the same type as before; setting twice keeps the
last value. -/
theorem C04_withNullability_value (t : Ty) (n m : Nullability) :
    (t.withNullability n).nullability = n ∧
    (t.withNullability n).variation = t.variation ∧
    ((t.withNullability n).withNullability m) = t.withNullability m ∧
    (t.PlanType → (t.withNullability n).PlanType ∧ (t.withNullability t.nullability).Same t) := by
  cases t <;>
    simp [Ty.withNullability, Ty.nullability, Ty.variation, Ty.PlanType, Ty.Same, Ty.erase]

/-- **C04 (only the outermost nullability).** Two plan types with the same result after
`WithNullability n` differ at most in their own nullability: if that agrees too they are equal. -/
theorem C04_only_outermost (a b : Ty) (ha : a.PlanType) (n : Nullability)
    (h : (a.withNullability n).equals (b.withNullability n) = .ok true)
    (hn : a.nullability = b.nullability) : a.equals b = .ok true := by
  have ha' : (a.withNullability n).PlanType := ((C04_withNullability_value a n n).2.2.2 ha).1
  have h := (equals_true_iff ha').1 h
  refine (equals_true_iff ha).2 ?_
  cases a <;> cases b <;>
    simp_all [Ty.withNullability, Ty.nullability, Ty.erase, Ty.PlanType]

example : (Ty.struct 1 3 [.prim .i8 2 0]).PlanType ∧
    ((Ty.struct 1 3 [.prim .i8 2 0]).withNullability 2).equals
      ((Ty.struct 1 3 [.prim .i8 2 0]).withNullability 2) = .ok true :=
  ⟨by simp [Ty.PlanType, Ty.PlanTypeList], by simp [Ty.equals, Ty.equalsList, Ty.withNullability]⟩

/-- **C04 (receiver unchanged; full statement, false).** -/
def C04_receiver_statement : Prop :=
  ∀ (mem mem' : TypeMem) (a a' : Nat) (n : Nullability),
    withNullabilityAt mem a n = .ok (mem', a') → ∀ i, i < mem.length → mem'[i]? = mem[i]?

/-- **C04 (receiver), partial.** If the receiver is not an interval_day type, no existing type
object changes, and the result is a new object holding the new value. Missing: interval_day. -/
theorem C04_receiver_unchanged_partial (mem mem' : TypeMem) (a a' : Nat) (n : Nullability) (t : Ty)
    (ht : mem[a]? = some t) (hk : ∀ m v p, t ≠ .prec .intervalDay m v p)
    (h : withNullabilityAt mem a n = .ok (mem', a')) :
    (∀ i, i < mem.length → mem'[i]? = mem[i]?) ∧ mem'[a']? = some (t.withNullability n) ∧
      mem.length ≤ a' := by
  have : withNullabilityAt mem a n = .ok (mem ++ [t.withNullability n], mem.length) := by
    unfold withNullabilityAt
    rw [ht]
    split
    · simp_all
    · rename_i m v p e; cases e; exact absurd rfl (hk m v p)
    · rename_i e; cases e; rfl
  rw [this] at h
  cases h
  refine ⟨fun i hi => ?_, by simp, Nat.le_refl _⟩
  simp [List.getElem?_append_left hi]

example : ∃ mem', withNullabilityAt [.prim .i32 1 0] 0 2 = .ok (mem', 1) := ⟨_, rfl⟩

/-- **C04 is false of the code for interval_day**: the receiver's own nullability changes. -/
theorem C04_receiver_negation : ¬ C04_receiver_statement := by
  intro h
  have := h [.prec .intervalDay 1 0 6] _ 0 0 2 rfl 0 (by decide)
  simp [Ty.withNullability] at this

/-! ## C05 -/

/-- **C05.** With at least `DepthFirstNameCount` names, printing succeeds and uses exactly the first
that many names, once each and in order; with fewer names it panics. -/
theorem C05_name_count (names : List String) (ts : List Ty) :
    (depthFirstNameCount ts ≤ names.length →
      ∃ out, namedStructString names ts = .ok out ∧
        tokNames out = names.take (depthFirstNameCount ts)) ∧
    (names.length < depthFirstNameCount ts → namedStructString names ts = .panic) := by
  have h := writeFields_exact names ts true 0
  constructor
  · intro hc
    obtain ⟨o, e1, e2⟩ := h.1 (by omega)
    refine ⟨_, by simp only [namedStructString, e1, Res.ok_bind]; rfl, ?_⟩
    simpa [tokNames, tokNames_append] using e2
  · intro hc
    simp [namedStructString, h.2 (by omega) (by omega)]

/-- Both sides of C05 occur: a list of structs inside a map needs 1 + 2 names. -/
example : depthFirstNameCount
      [.map 1 0 (.prim .string 2 0) (.list 1 0 (.struct 2 0 [.prim .i8 1 0, .prim .i16 1 0]))] = 3 ∧
    (namedStructString ["m", "a", "b"]
      [.map 1 0 (.prim .string 2 0) (.list 1 0 (.struct 2 0 [.prim .i8 1 0, .prim .i16 1 0]))]).isOk
      = true := by
  constructor
  · decide
  · decide

end Verif
