import Verif.Lemmas.TypeStrings
import Verif.Lemmas.Types
/-!
# C131: types that print the same are the same type
-/

namespace Verif

/-- **C131.** Types are equal exactly if their texts are. -/
def C131_statement : Prop :=
  ∀ (a b : Ty), a.string = b.string ↔ a.equals b = .ok true

/-- **C131 (texts), partial.** Texts of types without enumerations are equal exactly if the types differ in nothing
but what texts do not tell: variations, unspecified nullability, the contents of user-defined types. -/
theorem C131_text_partial (a b : Ty) (ha : a.NoEnums) (hb : b.NoEnums) : a.string = b.string ↔ a.shown = b.shown := by
  constructor
  · intro h
    refine (TyStr.decode a b [] [] ha hb ?_ ?_ ?_).1
    · intro c hc; cases hc
    · intro c hc; cases hc
    · rw [List.append_nil, List.append_nil, TyStr.chars, TyStr.chars, h]
  · intro h
    have h1 := TyStr.pieces_shown a
    rw [h, TyStr.pieces_shown b] at h1
    rw [Ty.string, Ty.string, h1]

/-- non-vacuity: `map<string?, struct<decimal<38,2>, func<i32 -> interval_day?<6>>>>` with a variation is told apart
from the same type with another scale -/
example :
    let a := Ty.map 2 7 (.prim .string 1 0) (.struct 2 0 [.decimal 2 0 2 38, .func 2 [.prim .i32 2 0] (.prec .intervalDay 1 0 6)])
    let b := Ty.map 2 7 (.prim .string 1 0) (.struct 2 0 [.decimal 2 0 3 38, .func 2 [.prim .i32 2 0] (.prec .intervalDay 1 0 6)])
    a.NoEnums ∧ b.NoEnums ∧ a.shown ≠ b.shown := by
  simp [Ty.shown, Ty.shownList, Ty.NoEnums, Ty.NoEnumsList]

/-- **C131 (equality), partial.** Of types with nothing that texts do not tell, texts are equal exactly if the types
are. -/
theorem C131_equal_partial (a b : Ty) (ha : a.Told) (hb : b.Told) : a.string = b.string ↔ a = b := by
  rw [C131_text_partial a b (TyStr.told_shown a ha).2 (TyStr.told_shown b hb).2, (TyStr.told_shown a ha).1,
    (TyStr.told_shown b hb).1]

/-- non-vacuity -/
example : (Ty.struct 2 0 [.prim .timestamp 1 0, .prim .timestampTz 2 0, .list 1 0 (.fixed .varChar 2 0 10)]).Told :=
  ⟨.inr rfl, rfl, ⟨.inl rfl, rfl⟩, ⟨.inr rfl, rfl⟩, ⟨.inl rfl, rfl, .inr rfl, rfl⟩, trivial⟩

mutual
private theorem equals_shown : ∀ (a b : Ty), a.NoEnums → a.equals b = .ok true → a.shown = b.shown
  | a, b, ha, h => by
    cases ea : a <;> subst ea <;> cases b <;> simp only [Ty.equals, Res.ok.injEq, Bool.false_eq_true] at h
    all_goals first
    | exact ha.elim
    | skip
    · simp_all [Ty.shown]
    · simp_all [Ty.shown]
    · simp_all [Ty.shown]
    · simp_all [Ty.shown]
    · simp_all [Ty.shown]
    · simp_all [Ty.shown]
    · rename_i n v ts n' v' ts'
      split at h
      · simp at h
      · split at h
        · simp at h
        · split at h
          · simp at h
          · rename_i h1 h2 h3
            simp only [Ty.NoEnums] at ha
            simp only [Ty.shown, equals_shownList ts ts' ha (by simpa using h3) h, Decidable.not_not.1 h1]
    · rename_i n ps r n' ps' r'
      split at h
      · simp at h
      · split at h
        · simp at h
        · rename_i h1 h3
          simp only [Ty.NoEnums] at ha
          obtain ⟨b, hb, h⟩ := Res.bind_eq_ok.1 h
          cases b
          · simp at h
          · simp only [Bool.not_true, Bool.false_eq_true, if_false] at h
            simp only [Ty.shown, equals_shownList ps ps' ha.1 (by simpa using h3) h, Decidable.not_not.1 h1,
              equals_shown r r' ha.2 hb]
    · rename_i n v t n' v' t'
      split at h
      · simp at h
      · split at h
        · simp at h
        · rename_i h1 h2
          simp only [Ty.NoEnums] at ha
          simp only [Ty.shown, equals_shown t t' ha h, Decidable.not_not.1 h1]
    · rename_i n v k e n' v' k' e'
      split at h
      · simp at h
      · split at h
        · simp at h
        · rename_i h1 h2
          simp only [Ty.NoEnums] at ha
          obtain ⟨b, hb, h⟩ := Res.bind_eq_ok.1 h
          cases b
          · simp at h
          · simp only [if_true] at h
            simp only [Ty.shown, equals_shown k k' ha.1 hb, equals_shown e e' ha.2 h, Decidable.not_not.1 h1]
    · simp only [Ty.shown]
termination_by a => sizeOf a
private theorem equals_shownList : ∀ (ts us : List Ty), Ty.NoEnumsList ts → ts.length = us.length →
    Ty.equalsList ts us = .ok true → Ty.shownList ts = Ty.shownList us
  | [], [], _, _, _ => rfl
  | [], _ :: _, _, h, _ => by simp at h
  | _ :: _, [], _, h, _ => by simp at h
  | t :: ts, u :: us, ha, hl, h => by
      simp only [Ty.equalsList] at h
      obtain ⟨b, hb, h⟩ := Res.bind_eq_ok.1 h
      cases b
      · simp at h
      · simp only [if_true] at h
        simp only [Ty.shownList, equals_shown t u ha.1 hb, equals_shownList ts us ha.2 (by simpa using hl) h]
termination_by ts => sizeOf ts
end

/-- **C131 (one direction).** Types that `Equals` finds equal print the same, enumerations apart. -/
theorem C131_same_text_partial (a b : Ty) (ha : a.NoEnums) (h : a.equals b = .ok true) : a.string = b.string := by
  have h1 := TyStr.pieces_shown a
  rw [equals_shown a b ha h, TyStr.pieces_shown b] at h1
  rw [Ty.string, Ty.string, h1]

/-- non-vacuity: a compound interval equals a pointer to it -/
example : (Ty.intervalCompound false 2 0 6).NoEnums ∧
    (Ty.intervalCompound false 2 0 6).equals (.intervalCompound true 2 0 6) = .ok true := by
  simp [Ty.NoEnums, Ty.equals]

/-- **C131, negation.** All user-defined types print the same. -/
theorem C131_negation : ¬ C131_statement := by
  intro h
  have h1 := (h (.udt 2 0 1 []) (.udt 2 0 2 [])).1 rfl
  simp [Ty.equals] at h1

/-- Neither are variations and nullability of user-defined types printed. -/
theorem C131_negation_variation : (Ty.prim .i32 2 0).string = (Ty.prim .i32 2 1).string ∧
    (Ty.prim .i32 2 0).equals (.prim .i32 2 1) = .ok false ∧
    (Ty.udt 1 0 1 []).string = (Ty.udt 2 0 1 []).string ∧ (Ty.udt 1 0 1 []).equals (.udt 2 0 1 []) = .ok false := by
  refine ⟨rfl, ?_, rfl, ?_⟩ <;> simp [Ty.equals]

/-- An unspecified nullability prints like required. -/
theorem C131_negation_unspecified : (Ty.prim .i32 0 0).string = (Ty.prim .i32 2 0).string ∧
    (Ty.prim .i32 0 0).equals (.prim .i32 2 0) = .ok false := by
  refine ⟨rfl, ?_⟩
  simp [Ty.equals]

end Verif
