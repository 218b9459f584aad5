import Verif.Lemmas.RowsSame
import Verif.Lemmas.PlanBuild
import Verif.Props.Rows
/-!
# Properties C122 and C123: what remapping and rewriting do to the rows of a relation
-/

namespace Verif

/-! ## C122: Remap -/

/-- The property in full: the rows of `r.Remap(m)` are the rows of `r`, of each the columns `m` in the
order of `m`. False: see the negation below. -/
def C122_statement : Prop :=
  ∀ (g : Engine) (s : Shape) (r r' : Rel) (m : List Int32) (direct cols : List Ty), g.Fits s →
    r.ExprsGood s → r.directOutputSchema = .ok direct → r.recordType = .ok cols → Countable direct →
    Countable cols → r.remap m = .ok r' →
    ∀ out, r'.Yields g out ↔ ∃ row, r.Yields g row ∧ Picks row m out

/-- C122, missing: the relations whose stated record type is wrong (C121). The rows of the relation
that `Remap` returns are the rows of the old one, of each the columns asked for in the order asked for;
columns may be left out and repeated. (The column counts fit the `int32` in which the code counts
them.) -/
theorem C122_remap_partial (g : Engine) (s : Shape) (r r' : Rel) (m : List Int32)
    (direct cols : List Ty) (hg : g.Fits s) (he : r.ExprsGood s) (hp : r.PlainRows)
    (hd : r.directOutputSchema = .ok direct) (hc : r.recordType = .ok cols) (hds : Countable direct)
    (hcs : Countable cols) (h : r.remap m = .ok r') (out : List Val) :
    r'.Yields g out ↔ ∃ row, r.Yields g row ∧ Picks row m out :=
  remap_rows hd hc hds hcs
    (fun ds hm => inTypes_length (makes_inTypes g s hg r he hp ds direct hm hd)) h out

/-- A builder call with output mapping makes the relation that the call without mapping makes, with
the columns of each row picked. Nothing is assumed of the relation. -/
theorem C122_builder (g : Engine) (c : BuildCall) (m : List Int32) (r' : Rel)
    (h : c.run (some m) = .ok r') :
    ∃ r, c.run none = .ok r ∧
      ∀ out, r'.Yields g out ↔ ∃ row, r.Yields g row ∧ Picks row m out := by
  refine ⟨_, run_none c _ r' h, fun out => ?_⟩
  have hm : r'.common.mapping = some m := by
    have ha := run_asks c _ r' h
    cases c <;> simp only [BuildCall.Asks] at ha
    · obtain ⟨_, -, rfl⟩ := ha; rfl
    · obtain ⟨_, _, -, -, rfl⟩ := ha; rfl
    · obtain ⟨_, -, rfl⟩ := ha; rfl
    · obtain ⟨_, -, rfl⟩ := ha; rfl
    · obtain ⟨_, _, -, -, rfl⟩ := ha; rfl
    · obtain ⟨_, -, rfl⟩ := ha; rfl
    · obtain ⟨_, -, rfl⟩ := ha; rfl
    · subst ha; rfl
    · obtain ⟨_, _, _, -, -, -, rfl⟩ := ha; rfl
    · obtain ⟨_, -, rfl⟩ := ha; rfl
    · obtain ⟨_, -, rfl⟩ := ha; rfl
  simp only [Rel.Yields, makes_setMapping, common_setMapping, RelCommon.EmitsRow, hm]
  constructor
  · rintro ⟨ds, h1, h2⟩; exact ⟨ds, ⟨ds, h1, rfl⟩, h2⟩
  · rintro ⟨row, ⟨ds, h1, rfl⟩, h2⟩; exact ⟨_, h1, h2⟩

/-- The rows of an anti hash join have the columns of the left input only, but the record type has
those of both; asking for both leaves the relation as it is. -/
theorem C122_negation : ¬ C122_statement := by
  intro h
  have := (h exEngine exShape
    (.hashJoin {} (exInts NullabilityRequired) (exInts NullabilityRequired) [] .nil 7 none) _ [0, 1]
    _ _ exEngine_fits (by simp only [Rel.ExprsGood]; exact ⟨exInts_good _, exInts_good _⟩) rfl rfl
    (by simp [Countable]) (by simp [Countable]) rfl [exFive]).1 (by
      refine ⟨[exFive], ?_, rfl⟩
      simp only [Rel.setMapping, Rel.withCommon, Rel.Makes]
      refine ⟨_, _, rfl, rfl, ⟨exInts_yields _ _ (exFive_in _), ?_⟩, .inl rfl⟩
      rintro ⟨b, -, h⟩
      exact h)
  obtain ⟨row, -, hp⟩ := this
  exact absurd hp.length_eq (by decide)

/-- the row (7, null) of a project over a left join, its columns in another order and repeated -/
example : ∃ r' : Rel, exJoined.remap [1, 1, 0] = .ok r' ∧ exJoined.PlainRows ∧ exJoined.ExprsGood exShape ∧
    r'.Yields exEngine [.null, .null, .simple (.prim .i32 NullabilityRequired 0) 0] := by
  have hr : exJoined.remap [1, 1, 0] = .ok (exJoined.setMapping (some [1, 1, 2])) := rfl
  have hb : exJoined.ExprsGood exShape ∧ exJoined.PlainRows := by
    simp only [exJoined, Rel.ExprsGood, Rel.PlainRows]
    refine ⟨⟨⟨exInts_good _, exInts_good _⟩, _, rfl, ?_⟩, ?_, ?_⟩
    · simp only [Shape.Good, Expr.CheckedList, EPlain.CarefulList]
      simp [exSeven, Expr.Checked, Lit.Coherent, Ty.Leaf, Expr.Careful]
    · simp [exInts, Rel.PlainRows]
    · simp [exInts, Rel.PlainRows]
  refine ⟨_, hr, hb.2, hb.1, ?_⟩
  refine (C122_remap_partial exEngine exShape exJoined _ [1, 1, 0] _ _ exEngine_fits hb.1 hb.2 rfl rfl
    (by simp [Countable]) (by simp [Countable]) hr _).2 ⟨_, exJoined_yields, ?_⟩
  exact .cons ⟨by decide, rfl⟩ (.cons ⟨by decide, rfl⟩ (.cons ⟨by decide, rfl⟩ .nil))

/-! ## C123: rewriting -/

/-- **C123.** Let `R` be any reflexive relation between expressions, such that the rewriting function
replaces every expression by a related one. If the new inputs are alike to the old ones, so is the
relation that `CopyWithExpressionRewrite` returns: it differs only in that expressions are replaced by
related ones. This holds although not every expression is rewritten (C48), and whatever the function
reports about identity. -/
theorem C123_rewrite (sh : Sharing) (R : Expr → Expr → Prop) (f : RewriteFn) (r out : Rel)
    (ins : List NewInput) (same : Bool) (hR : ∀ e, R e e)
    (hf : ∀ e e' s, f e = .ok (e', s) → R e e')
    (hl : ins.length = r.getInputs.length)
    (hi : ∀ (k : Nat) (i : Rel) (j : NewInput), r.getInputs[k]? = some i → ins[k]? = some j →
      i.Alike R j.1)
    (h : r.copyRewrite sh f ins = .ok (out, same)) : r.Alike R out := by
  refine copyRewrite_alike hf hR ?_ h
  clear h
  generalize r.getInputs = is at hl hi
  induction is generalizing ins with
  | nil => cases List.length_eq_zero_iff.1 hl; exact .nil
  | cons i is ih =>
    cases ins with
    | nil => cases hl
    | cons j js =>
      refine .cons (hi 0 i j rfl rfl) (ih js (by simpa using hl) fun k a b ha hb => ?_)
      exact hi (k + 1) a b (by simpa using ha) (by simpa using hb)

/-- **C123 (trees).** ... and so is the whole tree when it is rewritten from the leaves to the root. -/
theorem C123_tree (sh : Sharing) (R : Expr → Expr → Prop) (f : RewriteFn) (r out : Rel)
    (hR : ∀ e, R e e) (hf : ∀ e e' s, f e = .ok (e', s) → R e e') (h : RewrittenTree sh f r out) :
    r.Alike R out := by
  induction h with
  | node r ins out same inputs _ here ih => exact C123_rewrite sh R f r out ins same hR hf inputs ih here

/-- **C123 (rows).** When each expression is replaced by one with the same type and the same values, the
rewritten tree has the same columns and the same rows. -/
theorem C123_rows (sh : Sharing) (f : RewriteFn) (r out : Rel)
    (hf : ∀ e e' s, f e = .ok (e', s) → e.SameMeaning e') (h : RewrittenTree sh f r out) :
    out.recordType = r.recordType ∧ ∀ g vs, out.Yields g vs ↔ r.Yields g vs := by
  have := C123_tree sh _ f r out sameMeaning_refl hf h
  exact ⟨alike_recordType (fun _ _ h => h.2.1) this, fun g vs => yields_alike g this vs⟩

open Classical in
/-- A rewriting function: an if whose first condition is the literal true becomes the result of that
condition, if the type stays the same. -/
noncomputable def foldIf : RewriteFn := fun e =>
  match e with
  | .ifThen (.mk (.lit (.prim (.bool true) _)) r :: _) _ =>
      if r.isNil = false ∧ r.getType = e.getType then .ok (r, false) else .ok (e, true)
  | e => .ok (e, true)

/-- It keeps the meaning of every expression. -/
theorem foldIf_same (e e' : Expr) (s : Bool) (h : foldIf e = .ok (e', s)) : e.SameMeaning e' := by
  unfold foldIf at h
  split at h
  · rename_i t r ps els
    split at h
    · rename_i hc
      cases h
      refine ⟨by rw [hc.1]; simp [Expr.isNil], hc.2, fun w v => ?_⟩
      have hy : ∀ x, (Expr.lit (.prim (.bool true) t)).Yields w x ↔ x = .bool true := by
        intro x
        simp only [Expr.Yields, Lit.denote, Option.some.injEq]
        exact eq_comm
      have : (Expr.ifThen (.mk (.lit (.prim (.bool true) t)) e' :: ps) els).Yields w v ↔
          (EPair.YieldsFirst w (.mk (.lit (.prim (.bool true) t)) e' :: ps) v ∨
            (EPair.NoneTrue w (.mk (.lit (.prim (.bool true) t)) e' :: ps) ∧ els.Yields w v)) := by
        simp only [Expr.Yields]
      rw [this]
      simp only [EPair.YieldsFirst, EPair.NoneTrue, hy]
      simp
    · cases h; exact sameMeaning_refl _
  · cases h; exact sameMeaning_refl _

/-- a filter with such a condition -/
def exFiltered (cond : Expr) : Rel := .filter {} (exInts NullabilityRequired) cond none

/-- the condition, and what becomes of it -/
def exAlways : Expr := .ifThen [.mk (.lit (.prim (.bool true) (.prim .boolean 2 0))) sampleCond] sampleCond

/-- A tree that is rewritten to another. -/
theorem exFiltered_rewritten (sh : Sharing) :
    RewrittenTree sh foldIf (exFiltered exAlways) (exFiltered sampleCond) := by
  have hn : foldIf .nil = .ok (.nil, true) := rfl
  have hc : foldIf exAlways = .ok (sampleCond, false) := by
    simp [foldIf, exAlways, sampleCond, Expr.isNil, Expr.getType]
  refine .node _ [(exInts NullabilityRequired, true)] _ false rfl ?_ ?_
  · intro k i j hi hj
    match k, hi, hj with
    | 0, hi, hj =>
      cases hi
      cases hj
      exact .node _ [] _ true rfl (fun k i j h => by simp [exInts, Rel.getInputs] at h)
        (by simp [exInts, Rel.copyRewrite, hn])
    | k + 1, hi, _ => simp [exFiltered, Rel.getInputs] at hi
  · simp [exFiltered, Rel.copyRewrite, hc]

example (sh : Sharing) (g : Engine) (vs : List Val) :
    (exFiltered sampleCond).Yields g vs ↔ (exFiltered exAlways).Yields g vs :=
  (C123_rows sh foldIf _ _ foldIf_same (exFiltered_rewritten sh)).2 g vs

end Verif
