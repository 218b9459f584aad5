import Verif.Model.Scalar
import Verif.Spec.Scalar
/-!
# What `IsScalar` looks at
-/

namespace Verif

/-- what the answer says about a list of subexpressions -/
def AnswerFor (r : Res Bool) (es : List Expr) : Prop :=
  (r = .ok false → ∃ c ∈ es, c.HasNonScalar) ∧
  (r = .ok true → (∀ c ∈ es, c.NoExprRoots) → ∀ c ∈ es, ¬ c.HasNonScalar) ∧
  ((∀ c ∈ es, ∀ x, Expr.Within x c → x ≠ .nil) → r ≠ .panic) ∧ r ≠ .err

theorem AnswerFor.nil : AnswerFor (.ok true) [] := by
  refine ⟨by simp, by simp, by simp, by simp⟩

theorem AnswerFor.seq {r : Res Bool} {k : Res Bool} {es fs : List Expr} (h : AnswerFor r es) (hk : AnswerFor k fs) :
    AnswerFor (r >>= fun b => if b then k else .ok false) (es ++ fs) := by
  obtain ⟨h1, h2, h3, h4⟩ := h
  obtain ⟨k1, k2, k3, k4⟩ := hk
  cases r with
  | err => exact absurd rfl h4
  | panic =>
    refine ⟨by simp, by simp, fun h => ?_, by simp⟩
    exact absurd rfl (h3 fun c hc => h c (List.mem_append_left _ hc))
  | ok b =>
    cases b with
    | false =>
      refine ⟨fun _ => ?_, by simp, by simp, by simp⟩
      obtain ⟨c, hc, hx⟩ := h1 rfl
      exact ⟨c, List.mem_append_left _ hc, hx⟩
    | true =>
      simp only [Res.ok_bind, if_true]
      refine ⟨fun e => ?_, fun e hr c hc => ?_, fun h => k3 fun c hc => h c (List.mem_append_right _ hc), k4⟩
      · obtain ⟨c, hc, hx⟩ := k1 e
        exact ⟨c, List.mem_append_right _ hc, hx⟩
      · rcases List.mem_append.1 hc with hc | hc
        · exact h2 rfl (fun c hc => hr c (List.mem_append_left _ hc)) c hc
        · exact k2 e (fun c hc => hr c (List.mem_append_right _ hc)) c hc

theorem hasNonScalar_nil : ¬ Expr.HasNonScalar .nil := by
  rintro ⟨x, hx, hn⟩
  cases hx with
  | refl => cases hn
  | part c _ hc _ => simp [Expr.parts] at hc

theorem AnswerFor.opt {e : Expr} (h : AnswerFor e.isScalar [e]) :
    AnswerFor (if e.isNil then .ok true else e.isScalar) [e] := by
  cases e with
  | nil =>
    refine ⟨by simp [Expr.isNil], ?_, by simp [Expr.isNil], by simp [Expr.isNil]⟩
    intro _ _ c hc
    rw [List.mem_singleton.1 hc]
    exact hasNonScalar_nil
  | _ => exact h

theorem AnswerFor.weaken {r es fs} (h : AnswerFor r es) (hs : ∀ c ∈ es, c ∈ fs)
    (hn : ∀ c ∈ fs, c ∈ es ∨ ¬ c.HasNonScalar) : AnswerFor r fs := by
  obtain ⟨h1, h2, h3, h4⟩ := h
  refine ⟨fun e => ?_, fun e hr c hc => ?_, fun h => h3 fun c hc => h c (hs c hc), h4⟩
  · obtain ⟨c, hc, hx⟩ := h1 e
    exact ⟨c, hs c hc, hx⟩
  · rcases hn c hc with h | h
    · exact h2 e (fun c hc => hr c (hs c hc)) c h
    · exact h

theorem hasNonScalar_lit (l : Lit) : ¬ Expr.HasNonScalar (.lit l) := by
  rintro ⟨x, hx, hn⟩
  cases hx with
  | refl => cases hn
  | part c _ hc _ => simp [Expr.parts] at hc

/-- the answer for an expression from the answer for its parts -/
theorem AnswerFor.of_parts {e : Expr} {r : Res Bool} (h : AnswerFor r e.parts) (hn : ¬ e.NonScalar)
    (he : ∀ ex ref k, e ≠ .fieldRef (.expr ex) ref k) : AnswerFor r [e] := by
  obtain ⟨h1, h2, h3, h4⟩ := h
  refine ⟨fun e' => ?_, fun e' hr c hc => ?_, fun h => h3 fun c hc x hx => ?_, h4⟩
  · obtain ⟨c, hc, x, hx, hn⟩ := h1 e'
    exact ⟨e, List.mem_singleton_self _, x, .part c e hc hx, hn⟩
  · rw [List.mem_singleton.1 hc]
    rintro ⟨x, hx, hx'⟩
    cases hx with
    | refl => exact hn hx'
    | part d _ hd hx =>
      refine h2 e' ?_ d hd ⟨x, hx, hx'⟩
      intro d' hd' y hy
      exact hr e (List.mem_singleton_self _) y (.part d' e hd' hy)
  · exact h e (List.mem_singleton_self _) x (.part c e hc hx)

theorem AnswerFor.single_append {r : Res Bool} {e : Expr} {es} (h : AnswerFor r ([e] ++ es)) : AnswerFor r (e :: es) := h

mutual
theorem isScalar_answer : ∀ e : Expr, AnswerFor e.isScalar [e]
  | .nil => by
    refine ⟨by simp [Expr.isScalar], by simp [Expr.isScalar], fun h => ?_, by simp [Expr.isScalar]⟩
    exact absurd rfl (h .nil (List.mem_singleton_self _) .nil .refl)
  | .lit l => .of_parts .nil (by rintro ⟨⟩) (by simp)
  | .dynParam .. => .of_parts .nil (by rintro ⟨⟩) (by simp)
  | .scalarSubquery .. => .of_parts .nil (by rintro ⟨⟩) (by simp)
  | .setPredicate .. => .of_parts .nil (by rintro ⟨⟩) (by simp)
  | .fieldRef root ref k => by
    cases root with
    | expr ex =>
      refine ⟨by simp [Expr.isScalar], fun _ hr => ?_, by simp [Expr.isScalar], by simp [Expr.isScalar]⟩
      exact absurd rfl (hr _ (List.mem_singleton_self _) _ .refl ex ref k)
    | _ => exact .of_parts .nil (by rintro ⟨⟩) (by simp)
  | .ifThen ifs els => by
    refine .of_parts ?_ (by rintro ⟨⟩) (by simp)
    rw [Expr.isScalar]
    exact (optPairs_answer ifs).seq (isScalar_answer els).opt
  | .cast _ e _ => .of_parts (isScalar_answer e) (by rintro ⟨⟩) (by simp)
  | .switch m cs els => by
    refine .of_parts ?_ (by rintro ⟨⟩) (by simp)
    rw [Expr.isScalar]
    exact (isScalar_answer m).seq ((cases_answer cs).seq (isScalar_answer els).opt)
  | .singularOr v os => by
    refine .of_parts ?_ (by rintro ⟨⟩) (by simp)
    rw [Expr.isScalar]
    exact (isScalar_answer v).seq (list_answer os)
  | .multiOr vs rows => by
    refine .of_parts ?_ (by rintro ⟨⟩) (by simp)
    rw [Expr.isScalar]
    exact (list_answer vs).seq (rows_answer rows)
  | .mapE _ _ kvs => by
    refine .of_parts ?_ (by rintro ⟨⟩) (by simp)
    rw [Expr.isScalar]
    exact pairs_answer kvs
  | .structE _ _ es => by
    refine .of_parts ?_ (by rintro ⟨⟩) (by simp)
    rw [Expr.isScalar]
    exact list_answer es
  | .listE _ _ es => by
    refine .of_parts ?_ (by rintro ⟨⟩) (by simp)
    rw [Expr.isScalar]
    exact list_answer es
  | .scalar _ as => by
    refine .of_parts ?_ (by rintro ⟨⟩) (by simp)
    rw [Expr.isScalar]
    exact args_answer as
  | .window a w as ss ps =>
    ⟨fun _ => ⟨_, List.mem_singleton_self _, _, .refl, .window ..⟩, by simp [Expr.isScalar], by simp [Expr.isScalar],
      by simp [Expr.isScalar]⟩
  | .lambda n v ps b =>
    ⟨fun _ => ⟨_, List.mem_singleton_self _, _, .refl, .lambda ..⟩, by simp [Expr.isScalar], by simp [Expr.isScalar],
      by simp [Expr.isScalar]⟩
  | .inPredicate ns _ => by
    refine .of_parts ?_ (by rintro ⟨⟩) (by simp)
    rw [Expr.isScalar]
    exact list_answer ns
  | .setComparison _ _ l _ => .of_parts (isScalar_answer l) (by rintro ⟨⟩) (by simp)

theorem list_answer : ∀ es : List Expr, AnswerFor (Expr.scalarLoop es) es
  | [] => by rw [Expr.scalarLoop]; exact .nil
  | e :: es => by
    rw [Expr.scalarLoop]
    exact (isScalar_answer e).seq (list_answer es)

theorem optPairs_answer : ∀ ps : List EPair, AnswerFor (EPair.optScalarLoop ps) (ps.flatMap EPair.exprs)
  | [] => by rw [EPair.optScalarLoop]; exact .nil
  | .mk a b :: ps => by
    rw [EPair.optScalarLoop]
    exact (isScalar_answer a).opt.seq ((isScalar_answer b).opt.seq (optPairs_answer ps))

theorem pairs_answer : ∀ ps : List EPair, AnswerFor (EPair.scalarLoop ps) (ps.flatMap EPair.exprs)
  | [] => by rw [EPair.scalarLoop]; exact .nil
  | .mk a b :: ps => by
    rw [EPair.scalarLoop]
    exact (isScalar_answer a).seq ((isScalar_answer b).seq (pairs_answer ps))

theorem cases_answer : ∀ cs : List ECase, AnswerFor (ECase.scalarLoop cs) (cs.flatMap ECase.exprs)
  | [] => by rw [ECase.scalarLoop]; exact .nil
  | .mk l e :: cs => by
    rw [ECase.scalarLoop]
    refine ((isScalar_answer e).seq (cases_answer cs)).weaken ?_ ?_
    · intro c hc
      exact List.mem_cons_of_mem (.lit l) hc
    · intro c hc
      simp only [List.flatMap_cons, ECase.exprs, List.cons_append, List.nil_append, List.mem_cons] at hc ⊢
      rcases hc with rfl | hc
      · exact .inr (hasNonScalar_lit l)
      · exact .inl hc

theorem rows_answer : ∀ rs : List ERow, AnswerFor (ERow.scalarLoop rs) (rs.flatMap ERow.exprs)
  | [] => by rw [ERow.scalarLoop]; exact .nil
  | .mk es :: rs => by
    rw [ERow.scalarLoop]
    exact (list_answer es).seq (rows_answer rs)

theorem args_answer : ∀ as : List EArg, AnswerFor (EArg.scalarLoop as) (as.flatMap EArg.exprs)
  | [] => by rw [EArg.scalarLoop]; exact .nil
  | .expr e :: as => by
    rw [EArg.scalarLoop]
    exact (isScalar_answer e).seq (args_answer as)
  | .nil :: as => by rw [EArg.scalarLoop]; · exact args_answer as
                     · simp
  | .type t :: as => by rw [EArg.scalarLoop]; · exact args_answer as
                        · simp
  | .enum s :: as => by rw [EArg.scalarLoop]; · exact args_answer as
                        · simp
end

end Verif
