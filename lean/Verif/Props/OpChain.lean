import Verif.Lemmas.OpChain
/-!
# C91: the order of operators in derivations
-/

namespace Verif

/-- C91, as stated: a chain of operators between numbers and names, without parentheses, is read in the
usual order of operators. -/
def C91_statement : Prop :=
  ∀ (y : String) (x : DExpr) (os : List (DOp × DExpr)) (t : FTy), IsName y → IsAtom x →
    (∀ o ∈ os, o.1 ≠ .unknown ∧ IsAtom o.2) → Readable t →
    ∃ e, parseType (chainText y x os t) = .ok (chainMeaning y e t) ∧ Spells e x os ∧ UsualOrder e

theorem atom_writable {e : DExpr} (h : IsAtom e) : Writable e ∧ IsClosed e := by
  cases h with
  | num v => exact ⟨.num v, trivial⟩
  | name s hs => exact ⟨.name s hs, trivial⟩

/-- **C91 (partial)**: the order is usual when no operator follows one of lower precedence. Missing: the
other chains (for those the claim is false) and chains with the operator `=`, which after a name can
also begin the next assignment. -/
theorem C91_usual_partial (y : String) (x : DExpr) (os : List (DOp × DExpr)) (t : FTy) (hy : IsName y)
    (hx : IsAtom x) (ho : ∀ o ∈ os, o.1 ≠ .unknown ∧ o.1 ≠ .eq ∧ IsAtom o.2) (ht : Readable t)
    (hp : NoHigherLater os) :
    ∃ e, parseType (chainText y x os t) = .ok (chainMeaning y e t) ∧ Spells e x os ∧ UsualOrder e := by
  refine ⟨leftToRight x os, ?_, spells_left x hx os (fun o h => (ho o h).2.2),
    usual_left x hx os (fun o h => (ho o h).2.2) hp⟩
  refine parse_chain y x os t hy (atom_writable hx).1 (atom_writable hx).2 ?_ ht
  intro o h
  obtain ⟨h1, h2, h3⟩ := ho o h
  exact ⟨h1, h2, atom_writable h3⟩

/-- What is true of all chains, also of those with calls and parentheses as operands: operators are applied
from left to right, whatever they are. -/
theorem C91_left_to_right (y : String) (x : DExpr) (os : List (DOp × DExpr)) (t : FTy) (hy : IsName y)
    (hx : Writable x) (hc : IsClosed x)
    (ho : ∀ o ∈ os, o.1 ≠ .unknown ∧ o.1 ≠ .eq ∧ Writable o.2 ∧ IsClosed o.2) (ht : Readable t) :
    parseType (chainText y x os t) = .ok (chainMeaning y (leftToRight x os) t) :=
  parse_chain y x os t hy hx hc ho ht

theorem isName_of {s : String} (c : Char) (cs : List Char) (e : s.toList = c :: cs)
    (h : 'a' ≤ c ∧ c ≤ 'z') (hcs : ∀ d ∈ cs, ('a' ≤ d ∧ d ≤ 'z'))
    (hf : String.ofList (s.toList.map Char.toLower) ∉ reservedWords)
    (hl : s.toList.length ≠ 4) : IsName s := by
  refine ⟨⟨c, cs, e, .inl h, fun d hd => .inl (.inl (hcs d hd))⟩, hf, ?_⟩
  intro d _ h'
  have := congrArg List.length h'
  rw [List.length_map] at this
  exact hl this

/-- letters as names -/
theorem name_y : IsName "y" := isName_of 'y' [] rfl (by decide) (by simp) (by decide +kernel) (by decide +kernel)
theorem name_a : IsName "a" := isName_of 'a' [] rfl (by decide) (by simp) (by decide +kernel) (by decide +kernel)

theorem name_max : IsName "max" :=
  isName_of 'm' ['a', 'x'] rfl (by decide) (by decide) (by decide +kernel) (by decide +kernel)

/-- `a * 2 - 1 > 3 or a` is read in the usual order. -/
example : ∃ e, parseType (chainText "y" (.name "a") [(.multiply, .num 2), (.minus, .num 1), (.gt, .num 3), (.or, .name "a")]
      (.prim .i32 2 0)) = .ok (chainMeaning "y" e (.prim .i32 2 0)) ∧ Spells e (.name "a")
      [(.multiply, .num 2), (.minus, .num 1), (.gt, .num 3), (.or, .name "a")] ∧ UsualOrder e := by
  refine C91_usual_partial _ _ _ _ name_y (.name _ name_a) ?_ (.prim _ _ (.inr rfl)) ?_
  · intro o ho
    simp only [List.mem_cons, List.not_mem_nil, or_false] at ho
    rcases ho with rfl | rfl | rfl | rfl
    · exact ⟨by simp, by simp, .num _⟩
    · exact ⟨by simp, by simp, .num _⟩
    · exact ⟨by simp, by simp, .num _⟩
    · exact ⟨by simp, by simp, .name _ name_a⟩
  · simp [NoHigherLater, DOp.precedence]

/-- `max(a, 2) + a * 2` is read as `(max(a, 2) + a) * 2`. -/
example : parseType (chainText "y" (.call "max" [.name "a", .num 2]) [(.plus, .name "a"), (.multiply, .num 2)]
      (.prim .i32 2 0)) = .ok (chainMeaning "y"
        (.bin .multiply (.bin .plus (.call "max" [.name "a", .num 2]) (.name "a")) (.num 2)) (.prim .i32 2 0)) := by
  refine C91_left_to_right _ _ _ _ name_y (.call _ _ name_max (by decide +kernel) ?_) trivial ?_ (.prim _ _ (.inr rfl))
  · intro e he
    simp only [List.mem_cons, List.not_mem_nil, or_false] at he
    rcases he with rfl | rfl
    · exact .name _ name_a
    · exact .num _
  · intro o ho
    simp only [List.mem_cons, List.not_mem_nil, or_false] at ho
    rcases ho with rfl | rfl
    · exact ⟨by simp, by simp, .name _ name_a, trivial⟩
    · exact ⟨by simp, by simp, .num _, trivial⟩

/-- the chain `1 + 2 * 3` for a type `t` -/
theorem sum_product (t : FTy) (ht : Readable t) :
    parseType (chainText "y" (.num 1) [(.plus, .num 2), (.multiply, .num 3)] t) =
      .ok (chainMeaning "y" (.bin .multiply (.bin .plus (.num 1) (.num 2)) (.num 3)) t) := by
  refine C91_left_to_right _ _ _ _ name_y (.num _) trivial ?_ ht
  intro o ho
  simp only [List.mem_cons, List.not_mem_nil, or_false] at ho
  rcases ho with rfl | rfl <;> exact ⟨by simp, by simp, .num _, trivial⟩

/-- C91 as stated is false: `1 + 2 * 3` is read as `(1 + 2) * 3`. -/
theorem C91_negation : ¬ C91_statement := by
  intro h
  have ht : Readable (.prim .i32 2 0) := .prim _ _ (.inr rfl)
  obtain ⟨e, h1, -, h3⟩ := h "y" (.num 1) [(.plus, .num 2), (.multiply, .num 3)] (.prim .i32 2 0) name_y (.num _)
    (by
      intro o ho
      simp only [List.mem_cons, List.not_mem_nil, or_false] at ho
      rcases ho with rfl | rfl <;> exact ⟨by simp, .num _⟩) ht
  rw [sum_product _ ht] at h1
  injection h1 with h1
  simp only [chainMeaning, FTy.derivation.injEq, List.cons.injEq, Prod.mk.injEq, true_and, and_true] at h1
  subst h1
  cases h3 with
  | atom _ h => cases h
  | bin _ _ _ _ _ h4 _ =>
    have := h4 _ _ _ rfl
    simp [DOp.precedence] at this

/-- A function whose return type is given as `varchar<y>` with `y = 1 + 2 * 3` returns `varchar<9>`. -/
theorem C91_negation_value : ∃ ret, parseType "y = 1 + 2 * 3\nvarchar<y>" = .ok ret ∧
    ret.returnType [] [] = .ok (.fixed .varChar 2 0 9) := by
  have e : "y = 1 + 2 * 3\nvarchar<y>" = chainText "y" (.num 1) [(.plus, .num 2), (.multiply, .num 3)]
      (.single (.fixed .varChar) 2 (.var "y")) := by decide +kernel
  refine ⟨_, by rw [e]; exact sum_product _ (.single _ _ _ (.inr rfl) name_y), ?_⟩
  rfl

end Verif
