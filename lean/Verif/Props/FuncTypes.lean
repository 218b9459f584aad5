import Verif.Lemmas.FuncTypes
/-!
# Declared parameter types: C30, C61
-/

namespace Verif

/-! ## C30 Strict matching implies loose matching -/

/-- C30 in full. -/
def C30_statement : Prop :=
  (∀ (p : FTy) (t : Ty), p.matchStrict t = true → p.matchLoose t = true) ∧
  (∀ (p : FTy) (t : Ty) (n : Nullability), p.matchLoose (t.withNullability n) = p.matchLoose t)

/-- C30, first half: for all declared and concrete types, nested to any depth. -/
theorem C30_strict_implies_loose (p : FTy) (t : Ty) (h : p.matchStrict t = true) :
    p.matchLoose t = true :=
  strict_loose p t h

/-- a strict match of a nested type -/
example : FTy.matchStrict (.list 1 (.struct 2 [.decimal 2 (.var "P") (.concrete 2), .any 1 "any1"]))
    (.list 1 0 (.struct 2 0 [.decimal 2 0 2 10, .prim .i32 1 0])) = true := by
  simp [FTy.matchStrict, FTy.matchStrictList, FTy.matchLoose, IntParam.isCompatible, Ty.nullability]

/-- C30, second half, for all arguments but enum arguments. Missing: enum arguments, for which the
claim is false (`C30_negation`). -/
theorem C30_loose_ignores_nullability_partial (n : Nullability) :
    ∀ (p : FTy) (t : Ty), ¬ t.IsEnumArg → p.matchLoose (t.withNullability n) = p.matchLoose t
  | .derivation as p, t, h => by
    simpa [FTy.matchLoose] using C30_loose_ignores_nullability_partial n p t h
  | .prim .., t, h => by cases t <;> simp [FTy.matchLoose, Ty.withNullability]
  | .any .., t, h => by cases t <;> simp [FTy.matchLoose]
  | .enum .., t, h => by
    cases t <;> simp [FTy.matchLoose, enumMatches, Ty.withNullability]
    rename_i c _ _ _ _
    cases c <;> simp_all [Ty.IsEnumArg]
  | .single .., t, h => by cases t <;> simp [FTy.matchLoose, singleMatches, Ty.withNullability]
  | .decimal .., t, h => by cases t <;> simp [FTy.matchLoose, Ty.withNullability]
  | .list .., t, h => by cases t <;> simp [FTy.matchLoose, Ty.withNullability]
  | .map .., t, h => by cases t <;> simp [FTy.matchLoose, Ty.withNullability]
  | .struct .., t, h => by cases t <;> simp [FTy.matchLoose, Ty.withNullability]
  | .func .., t, h => by cases t <;> simp [FTy.matchLoose, Ty.withNullability]
  | .udt .., t, h => by cases t <;> simp [FTy.matchLoose, Ty.withNullability]

/-- both sides true, and the nullability really changes -/
example : ¬ (Ty.list 1 0 (.prim .i8 2 0)).IsEnumArg ∧
    FTy.matchLoose (.list 2 (.any 2 "any1")) ((Ty.list 1 0 (.prim .i8 2 0)).withNullability 2) = true ∧
    (Ty.list 1 0 (.prim .i8 2 0)).withNullability 2 ≠ .list 1 0 (.prim .i8 2 0) := by
  simp [Ty.IsEnumArg, FTy.matchLoose, Ty.withNullability]

/-- C30 is false as stated: an enum argument matches every enum parameter, but its copy with another
nullability is no longer recognised as one. -/
theorem C30_negation : ¬ C30_statement := by
  intro h
  have := h.2 (.enum false 0 0 "part" ["YEAR", "MONTH"]) (.enum true 0 0 "" []) 1
  simp [FTy.matchLoose, enumMatches, Ty.withNullability] at this

/-! ## C61 Parameter matching is exact -/

/-- C61 in full: for every meaning `N` of type references. -/
def C61_statement : Prop :=
  ∀ (N : String → UInt32 → Prop) (p : FTy) (t : Ty),
    (p.matchLoose t = true ↔ Fits N SameInteger False p t) ∧
    (p.matchStrict t = true ↔ Fits N SameInteger True p t)

/-- C61 for matching without nullability. Missing: user-defined parameter types
(`C61_negation_name`, `C61_negation_integer`). -/
theorem C61_loose_exact_partial (N : String → UInt32 → Prop) (p : FTy) (t : Ty) (hp : p.NoUdt) :
    p.matchLoose t = true ↔ Fits N SameInteger False p t :=
  ⟨fun h => fits_noUdt (N := fun _ _ => True) (I := fun i j => i = j.toInt32) p t hp
      (matchLoose_fits (fun _ _ => trivial) (fun _ _ h => h) p t h),
   fun h => fits_matchLoose (N := N) (I := fun i j => i = j.toInt32) (fun _ _ h => h) p t
      (fits_noUdt p t hp h)⟩

/-- a type that does and one that does not match -/
example : (FTy.func 2 [.any 2 "any1", .single (.fixed .varChar) 2 (.concrete 5)] (.any 2 "any2")).NoUdt ∧
    FTy.matchLoose (.func 2 [.any 2 "any1", .single (.fixed .varChar) 2 (.concrete 5)] (.any 2 "any2"))
      (.func 1 [.prim .i8 1 0, .fixed .varChar 1 0 5] (.prim .date 2 0)) = true ∧
    FTy.matchLoose (.func 2 [.any 2 "any1", .single (.fixed .varChar) 2 (.concrete 5)] (.any 2 "any2"))
      (.func 1 [.prim .i8 1 0, .fixed .varChar 1 0 6] (.prim .date 2 0)) = false := by
  simp [FTy.NoUdt, FTy.NoUdtList, FTy.matchLoose, FTy.matchLooseList, singleMatches,
    IntParam.isCompatible]

/-- What is left of C61 for user-defined parameter types: an accepted argument is a user-defined type
with as many parameters, which fit except that integers are compared after truncation to 32 bits. The
name is not compared. Missing: the name and the untruncated integer. -/
theorem C61_loose_udt_partial (p : FTy) (t : Ty) :
    p.matchLoose t = true ↔ Fits (fun _ _ => True) (fun i j => i = j.toInt32) False p t :=
  ⟨matchLoose_fits (fun _ _ => trivial) (fun _ _ h => h) p t,
   fits_matchLoose (fun _ _ h => h) p t⟩

/-- a user-defined parameter type that matches, and one that does not -/
example : FTy.matchLoose (.udt 2 0 "box" [.dataType (.any 2 "any1"), .integer 3])
      (.udt 1 0 7 [.dataType (.prim .i8 1 0), .integer 3]) = true ∧
    FTy.matchLoose (.udt 2 0 "box" [.dataType (.any 2 "any1"), .integer 3])
      (.udt 1 0 7 [.dataType (.prim .i8 1 0), .integer 4]) = false := by
  simp [FTy.matchLoose, FParam.matchLooseList, FParam.matchLoose, FParam.matchLeaf]

/-- C61 for matching with nullability. Missing: function types, whose nested nullability is ignored
(`C61_negation_func`), and user-defined types. -/
theorem C61_strict_exact_partial (N : String → UInt32 → Prop) (p : FTy) (t : Ty) (hp : p.Plain) :
    p.matchStrict t = true ↔ Fits N SameInteger True p t :=
  ⟨matchStrict_fits p t hp, fits_matchStrict p t hp⟩

/-- a strict match, and the same with one nested nullability changed -/
example : (FTy.map 2 (.prim .string 2 0) (.list 1 (.prim .i8 1 0))).Plain ∧
    FTy.matchStrict (.map 2 (.prim .string 2 0) (.list 1 (.prim .i8 1 0)))
      (.map 2 0 (.prim .string 2 0) (.list 1 0 (.prim .i8 1 0))) = true ∧
    FTy.matchStrict (.map 2 (.prim .string 2 0) (.list 1 (.prim .i8 1 0)))
      (.map 2 0 (.prim .string 2 0) (.list 1 0 (.prim .i8 2 0))) = false := by
  simp [FTy.Plain, FTy.matchStrict, FTy.matchLoose, Ty.nullability]

/-- C61 is false as stated: a parameter of user-defined type `u!point` accepts an argument of
user-defined type `u!polygon` (reference 2 in a plan where 1 is point and 2 polygon). -/
theorem C61_negation_name : ¬ C61_statement := by
  intro h
  have h1 := (h (fun x r => (x = "point" ∧ r = 1) ∨ (x = "polygon" ∧ r = 2))
    (.udt 2 0 "point" []) (.udt 2 0 2 [])).1.1 (by simp [FTy.matchLoose, FParam.matchLooseList])
  cases h1 with
  | udt _ _ _ _ _ _ _ _ _ hN _ => simp at hN

/-- ... and an integer type parameter matches one that differs by a multiple of 2^32. -/
theorem C61_negation_integer : ¬ C61_statement := by
  intro h
  have h1 := (h (fun _ _ => True) (.udt 2 0 "box" [.integer 1])
    (.udt 2 0 1 [.integer 4294967297])).1.1
      (by simp [FTy.matchLoose, FParam.matchLooseList, FParam.matchLoose, FParam.matchLeaf])
  cases h1 with
  | udt _ _ _ _ _ _ _ _ _ _ hP =>
    cases hP with
    | integer _ _ _ _ hI _ => revert hI; unfold SameInteger; decide

/-- ... and matching with nullability accepts a function type whose parameter is nullable where the
declaration says it is not. -/
theorem C61_negation_func : ¬ C61_statement := by
  intro h
  have h1 := (h (fun _ _ => True) (.func 2 [.prim .i32 2 0] (.prim .i32 2 0))
    (.func 2 [.prim .i32 1 0] (.prim .i32 2 0))).2.1
      (by simp [FTy.matchStrict, FTy.matchLoose, FTy.matchLooseList, Ty.nullability])
  cases h1 with
  | func _ _ _ _ _ _ _ hA _ =>
    cases hA with
    | cons _ _ _ _ h2 _ =>
      cases h2 with
      | prim _ _ _ _ _ h3 => exact absurd (h3 trivial) (by decide)

end Verif
