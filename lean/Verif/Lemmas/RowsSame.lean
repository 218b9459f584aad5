import Verif.Lemmas.Rows
import Verif.Lemmas.Rel
import Verif.Spec.Alike
/-!
# Lemmas about the rows of relations that differ in their output mapping
-/

namespace Verif

theorem makes_setMapping (g : Engine) (r : Rel) (m : Option (List Int32)) (vs : List Val) :
    (r.setMapping m).Makes g vs ↔ r.Makes g vs := by
  cases r with
  | set _ is _ _ => cases is <;> simp only [Rel.setMapping, Rel.withCommon, Rel.Makes]
  | _ => simp only [Rel.setMapping, Rel.withCommon, Rel.Makes]

/-- What a relation emits of a row that is as wide as its direct schema. -/
theorem emits_effective {r : Rel} {n : Nat} {ds out : List Val} (hl : ds.length = n) (hn : n < 2 ^ 31) :
    r.common.EmitsRow ds out ↔ Picks ds (effective r n) out := by
  unfold RelCommon.EmitsRow effective Rel.outputMapping
  cases r.common.mapping with
  | none =>
    subst hl
    rw [Option.getD_none]
    constructor
    · rintro rfl; exact picks_identity _ hn
    · intro h; exact h.functional (picks_identity _ hn)
  | some m => rfl

/-- Picks out of a list of equal length exist for the same positions. -/
theorem picks_same_length {α β : Type} {xs : List α} {ys : List β} {m : List Int32} {us : List α}
    (hl : xs.length = ys.length) (h : Picks xs m us) : ∃ vs, Picks ys m vs := by
  rw [picks_exists]
  rw [← hl]
  exact picks_exists.1 ⟨_, h⟩

/-- The rows of a remapped relation, when rows are as wide as the direct schema. -/
theorem remap_rows {g : Engine} {r r' : Rel} {m : List Int32} {direct cols : List Ty}
    (hd : r.directOutputSchema = .ok direct) (hc : r.recordType = .ok cols) (hds : Countable direct)
    (hcs : Countable cols) (hw : ∀ ds, r.Makes g ds → ds.length = direct.length)
    (h : r.remap m = .ok r') (out : List Val) :
    r'.Yields g out ↔ ∃ row, r.Yields g row ∧ Picks row m out := by
  have hp := (recordType_picks hd hds).1 hc
  have hch := remap_char hd hds hc hcs m
  have hin : ∀ i ∈ m, InBounds cols.length i := by
    intro i hi
    by_contra hn
    rw [hch.2 ⟨i, hi, hn⟩] at h
    cases h
  obtain ⟨m', hm'⟩ := (picks_exists (src := effective r direct.length)).2
    (by rw [← hp.length_eq]; exact hin)
  have hr := hch.1 m' hm'
  rw [h] at hr
  cases hr
  have hs : ∀ ds, ds.length = direct.length →
      ((r.setMapping (stored direct.length m')).common.EmitsRow ds out ↔ Picks ds m' out) := by
    intro ds hl
    rw [emits_effective hl hds, effective_stored]
  constructor
  · rintro ⟨ds, hm, he⟩
    rw [makes_setMapping] at hm
    have hl := hw ds hm
    obtain ⟨row, hrow⟩ := picks_same_length hl.symm hp
    refine ⟨row, ⟨ds, hm, (emits_effective hl hds).2 hrow⟩, ?_⟩
    have hrl : row.length = cols.length := by rw [hrow.length_eq, hp.length_eq]
    obtain ⟨out', ho⟩ := (picks_exists (src := row)).2 (by rw [hrl]; exact hin)
    have := hrow.trans ho hm'
    rw [(hs ds hl).1 he |>.functional this]
    exact ho
  · rintro ⟨row, ⟨ds, hm, he⟩, ho⟩
    have hl := hw ds hm
    refine ⟨ds, (makes_setMapping ..).2 hm, (hs ds hl).2 ?_⟩
    exact ((emits_effective hl hds).1 he).trans ho hm'

/-! ## Alike relations -/

theorem forall₂_same {α : Type} {R : α → α → Prop} (hR : ∀ a, R a a) : ∀ l : List α, List.Forall₂ R l l
  | [] => .nil
  | _ :: l => .cons (hR _) (forall₂_same hR l)

theorem argAlike_refl {R : Expr → Expr → Prop} (a : EArg) : a.Alike R a := .inl rfl

theorem sortAlike_refl {R : Expr → Expr → Prop} (hR : ∀ e, R e e) : ∀ s : ESort, s.Alike R s
  | .mk _ _ => ⟨hR _, rfl⟩

theorem aggAlike_refl {R : Expr → Expr → Prop} (hR : ∀ e, R e e) (f : AggFn) : f.Alike R f :=
  ⟨rfl, rfl, rfl, forall₂_same argAlike_refl _, forall₂_same (sortAlike_refl hR) _⟩

theorem measureAlike_refl {R : Expr → Expr → Prop} (hR : ∀ e, R e e) (m : Measure) : m.Alike R m := by
  refine ⟨hR _, ?_⟩
  cases h : m.measure with
  | none => exact .inl ⟨rfl, rfl⟩
  | some f => exact .inr ⟨f, f, rfl, rfl, aggAlike_refl hR f⟩

mutual
theorem alike_refl {R : Expr → Expr → Prop} (hR : ∀ e, R e e) : ∀ r : Rel, r.Alike R r
  | .read c b k => by
    simp only [Rel.Alike]; exact ⟨_, _, _, hR _, hR _, .inl rfl, rfl⟩
  | .project c i es a => by
    simp only [Rel.Alike]; exact ⟨_, _, alike_refl hR i, forall₂_same hR es, rfl⟩
  | .join c x y e p t a => by
    simp only [Rel.Alike]; exact ⟨_, _, _, _, alike_refl hR x, alike_refl hR y, hR e, hR p, rfl⟩
  | .cross c x y a => by
    simp only [Rel.Alike]; exact ⟨_, _, alike_refl hR x, alike_refl hR y, rfl⟩
  | .fetch c i o n a => by simp only [Rel.Alike]; exact ⟨_, alike_refl hR i, rfl⟩
  | .aggregate c i ms es sets a => by
    simp only [Rel.Alike]
    exact ⟨_, _, _, alike_refl hR i, forall₂_same (measureAlike_refl hR) ms, forall₂_same hR es, rfl⟩
  | .sort c i ss a => by
    simp only [Rel.Alike]; exact ⟨_, _, alike_refl hR i, forall₂_same (sortAlike_refl hR) ss, rfl⟩
  | .filter c i e a => by simp only [Rel.Alike]; exact ⟨_, _, alike_refl hR i, hR e, rfl⟩
  | .set c is op a => by simp only [Rel.Alike]; exact ⟨_, allAlike_refl hR is, rfl⟩
  | .extSingle c i d => by simp only [Rel.Alike]; exact ⟨_, alike_refl hR i, rfl⟩
  | .extLeaf c d => by simp only [Rel.Alike]
  | .extMulti c is d => by simp only [Rel.Alike]; exact ⟨_, allAlike_refl hR is, rfl⟩
  | .hashJoin c x y ks p t a => by
    simp only [Rel.Alike]; exact ⟨_, _, _, alike_refl hR x, alike_refl hR y, hR p, rfl⟩
  | .mergeJoin c x y ks p t a => by
    simp only [Rel.Alike]; exact ⟨_, _, _, alike_refl hR x, alike_refl hR y, hR p, rfl⟩
  | .write c ns a s op i m => by simp only [Rel.Alike]; exact ⟨_, alike_refl hR i, rfl⟩
theorem allAlike_refl {R : Expr → Expr → Prop} (hR : ∀ e, R e e) : ∀ is : List Rel, Rel.AllAlike R is is
  | [] => by simp only [Rel.AllAlike]
  | i :: is => by simp only [Rel.AllAlike]; exact ⟨_, _, alike_refl hR i, allAlike_refl hR is, rfl⟩
end

theorem allAlike_iff {R : Expr → Expr → Prop} : ∀ {is js : List Rel},
    Rel.AllAlike R is js ↔ List.Forall₂ (Rel.Alike R) is js
  | [], js => by
    simp only [Rel.AllAlike]
    exact ⟨by rintro rfl; exact .nil, fun h => by cases h; rfl⟩
  | i :: is, js => by
    simp only [Rel.AllAlike]
    constructor
    · rintro ⟨i', is', h1, h2, rfl⟩; exact .cons h1 (allAlike_iff.1 h2)
    · intro h
      cases h with
      | cons h1 h2 => exact ⟨_, _, h1, allAlike_iff.2 h2, rfl⟩

theorem one_input {R : Rel → Rel → Prop} {i : Rel} {ins : List NewInput}
    (h : List.Forall₂ R [i] (ins.map (·.1))) : ∃ x s, ins = [(x, s)] ∧ R i x := by
  match ins, h with
  | [(x, s)], .cons h _ => exact ⟨x, s, rfl, h⟩
  | [], h => cases h
  | _ :: _ :: _, .cons _ h => cases h

theorem two_inputs {R : Rel → Rel → Prop} {i j : Rel} {ins : List NewInput}
    (h : List.Forall₂ R [i, j] (ins.map (·.1))) :
    ∃ x s y t, ins = [(x, s), (y, t)] ∧ R i x ∧ R j y := by
  match ins, h with
  | [(x, s), (y, t)], .cons h (.cons h' _) => exact ⟨x, s, y, t, rfl, h, h'⟩
  | [], h => cases h
  | [_], .cons _ h => cases h
  | _ :: _ :: _ :: _, .cons _ (.cons _ h) => cases h

section
variable {R : Expr → Expr → Prop} {f : RewriteFn} (hf : ∀ e e' s, f e = .ok (e', s) → R e e')
include hf

theorem rewriteAll_alike : ∀ {es es' : List Expr} {s : Bool}, rewriteAll f es = .ok (es', s) →
    List.Forall₂ R es es'
  | [], _, _, h => by cases h; exact .nil
  | e :: es, _, _, h => by
    simp only [rewriteAll, Res.bind_eq_ok] at h
    obtain ⟨⟨e', b⟩, h1, ⟨es', b'⟩, h2, h3⟩ := h
    cases h3
    exact .cons (hf _ _ _ h1) (rewriteAll_alike h2)

theorem rewriteSorts_alike : ∀ {ss ss' : List ESort} {s : Bool}, rewriteSorts f ss = .ok (ss', s) →
    List.Forall₂ (ESort.Alike R) ss ss'
  | [], _, _, h => by cases h; exact .nil
  | .mk e k :: ss, _, _, h => by
    simp only [rewriteSorts, Res.bind_eq_ok] at h
    obtain ⟨⟨e', b⟩, h1, ⟨es', b'⟩, h2, h3⟩ := h
    cases h3
    exact .cons ⟨hf _ _ _ h1, rfl⟩ (rewriteSorts_alike h2)

theorem rewriteArgs_alike : ∀ {as as' : List EArg} {s : Bool}, rewriteArgs f as = .ok (as', s) →
    List.Forall₂ (EArg.Alike R) as as'
  | [], _, _, h => by cases h; exact .nil
  | a :: as, _, _, h => by
    unfold rewriteArgs at h
    split at h
    · cases ‹_ = []›
    · rename_i e as0 heq
      cases heq
      split at h
      · simp only [Res.bind_eq_ok] at h
        obtain ⟨⟨es', b'⟩, h2, h3⟩ := h
        cases h3
        exact .cons (.inl rfl) (rewriteArgs_alike h2)
      · simp only [Res.bind_eq_ok] at h
        obtain ⟨⟨e', b⟩, h1, ⟨es', b'⟩, h2, h3⟩ := h
        cases h3
        refine .cons (.inr ⟨_, _, rfl, hf _ _ _ h1, ?_⟩) (rewriteArgs_alike h2)
        unfold argOf
        split
        · exact .inr ⟨by assumption, rfl⟩
        · exact .inl rfl
    · rename_i heq
      cases heq
      simp only [Res.bind_eq_ok] at h
      obtain ⟨⟨es', b'⟩, h2, h3⟩ := h
      cases h3
      exact .cons (.inl rfl) (rewriteArgs_alike h2)

variable (hR : ∀ e, R e e)
include hR

theorem rewriteMeasures_alike : ∀ {ms ms' : List Measure} {s : Bool}, rewriteMeasures f ms = .ok (ms', s) →
    List.Forall₂ (Measure.Alike R) ms ms'
  | [], _, _, h => by cases h; exact .nil
  | m :: ms, _, _, h => by
    simp only [rewriteMeasures, Res.bind_eq_ok] at h
    obtain ⟨⟨flt, b⟩, h1, ⟨fn, b'⟩, h2, ⟨ms', b''⟩, h3, h4⟩ := h
    cases h4
    refine .cons ⟨hf _ _ _ h1, ?_⟩ (rewriteMeasures_alike h3)
    cases hm : m.measure with
    | none =>
      rw [hm] at h2
      cases h2
      exact .inl ⟨rfl, rfl⟩
    | some g =>
      rw [hm] at h2
      simp only [rewriteAggFn, Res.bind_eq_ok] at h2
      obtain ⟨⟨args, same⟩, h5, h6⟩ := h2
      split at h6 <;> cases h6
      · exact .inr ⟨g, g, rfl, rfl, aggAlike_refl hR g⟩
      · exact .inr ⟨g, _, rfl, rfl, rfl, rfl, rfl, rewriteArgs_alike hf h5,
          forall₂_same (sortAlike_refl hR) _⟩

omit hR in
theorem rewriteTableRow_alike {sh : Sharing} : ∀ {es es' : List Expr} {u s : Bool},
    rewriteTableRow sh f u es = .ok (es', s) → List.Forall₂ R es es'
  | [], _, _, _, h => by cases h; exact .nil
  | e :: es, _, u, _, h => by
    simp only [rewriteTableRow, Res.bind_eq_ok] at h
    obtain ⟨⟨e', b⟩, h1, b', -, ⟨es', b''⟩, h2, h3⟩ := h
    cases h3
    exact .cons (hf _ _ _ h1) (rewriteTableRow_alike h2)

omit hR in
theorem rewriteTableRows_alike {sh : Sharing} : ∀ {vs vs' : List (List Expr)} {u s : Bool},
    rewriteTableRows sh f u vs = .ok (vs', s) → List.Forall₂ (List.Forall₂ R) vs vs'
  | [], _, _, _, h => by cases h; exact .nil
  | e :: es, _, u, _, h => by
    simp only [rewriteTableRows, Res.bind_eq_ok] at h
    obtain ⟨⟨e', b⟩, h1, ⟨es', b''⟩, h2, h3⟩ := h
    cases h3
    exact .cons (rewriteTableRow_alike hf h1) (rewriteTableRows_alike h2)

theorem copyRewrite_alike {sh : Sharing} {r out : Rel} {ins : List NewInput} {same : Bool}
    (hi : List.Forall₂ (Rel.Alike R) r.getInputs (ins.map (·.1)))
    (h : r.copyRewrite sh f ins = .ok (out, same)) : r.Alike R out := by
  have rest : ∀ r' : Res (Rel × Bool), r' = (if sameInputs r ins then .ok (r, true)
      else r.copy (ins.map (·.1)) >>= fun r' => .ok (r', false)) → r' = .ok (out, same) →
      (r.copy (ins.map (·.1)) = .ok out → r.Alike R out) → r.Alike R out := by
    rintro _ rfl h hc
    split at h
    · cases h; exact alike_refl hR _
    · obtain ⟨x, h1, h2⟩ := Res.bind_eq_ok.1 h
      cases h2
      exact hc h1
  cases r with
  | read c b k =>
    simp only [Rel.copyRewrite, Res.bind_eq_ok] at h
    obtain ⟨⟨flt, s₁⟩, h1, ⟨be, s₂⟩, h2, h⟩ := h
    split at h
    · cases h; exact alike_refl hR _
    · have hk : ∀ k', k.Alike R k' → (Rel.read c b k).Alike R
          (.read c { b with filter := flt, bestEffort := be } k') := by
        intro k' hk
        simp only [Rel.Alike]
        exact ⟨_, _, _, hf _ _ _ h1, hf _ _ _ h2, hk, rfl⟩
      cases k with
      | virt vs =>
        simp only [Res.bind_eq_ok] at h
        obtain ⟨⟨vs', u⟩, h3, h⟩ := h
        cases h
        refine hk _ ?_
        dsimp only
        split
        · exact .inl rfl
        · exact .inr ⟨_, _, rfl, rfl, rewriteTableRows_alike hf h3⟩
      | _ => cases h; exact hk _ (.inl rfl)
  | project c i es a =>
    obtain ⟨x, s, rfl, hx⟩ := one_input hi
    simp only [Rel.copyRewrite, Res.bind_eq_ok] at h
    obtain ⟨⟨es', t⟩, h1, h⟩ := h
    split at h <;> cases h
    · exact alike_refl hR _
    · simp only [Rel.Alike]
      exact ⟨_, _, hx, rewriteAll_alike hf h1, rfl⟩
  | join c l r e p t a =>
    obtain ⟨x, s, y, u, rfl, hx, hy⟩ := two_inputs hi
    simp only [Rel.copyRewrite, Res.bind_eq_ok] at h
    obtain ⟨⟨e', _⟩, h1, ⟨p', _⟩, h2, h⟩ := h
    split at h <;> cases h
    · exact alike_refl hR _
    · simp only [Rel.Alike]
      exact ⟨_, _, _, _, hx, hy, hf _ _ _ h1, hf _ _ _ h2, rfl⟩
  | cross c l r a =>
    obtain ⟨x, s, y, u, rfl, hx, hy⟩ := two_inputs hi
    refine rest _ rfl h fun hc => ?_
    cases hc
    simp only [Rel.Alike]
    exact ⟨_, _, hx, hy, rfl⟩
  | fetch c i o n a =>
    obtain ⟨x, s, rfl, hx⟩ := one_input hi
    simp only [Rel.copyRewrite] at h
    split at h <;> cases h
    · exact alike_refl hR _
    · simp only [Rel.Alike]
      exact ⟨_, hx, rfl⟩
  | aggregate c i ms es sets a =>
    obtain ⟨x, s, rfl, hx⟩ := one_input hi
    simp only [Rel.copyRewrite, Res.bind_eq_ok] at h
    obtain ⟨⟨es', _⟩, h1, ⟨ms', _⟩, h2, h⟩ := h
    split at h <;> cases h
    · exact alike_refl hR _
    · simp only [Rel.Alike]
      exact ⟨_, _, _, hx, rewriteMeasures_alike hf hR h2, rewriteAll_alike hf h1, rfl⟩
  | sort c i ss a =>
    obtain ⟨x, s, rfl, hx⟩ := one_input hi
    simp only [Rel.copyRewrite, Res.bind_eq_ok] at h
    obtain ⟨⟨ss', _⟩, h1, h⟩ := h
    split at h <;> cases h
    · exact alike_refl hR _
    · simp only [Rel.Alike]
      exact ⟨_, _, hx, rewriteSorts_alike hf h1, rfl⟩
  | filter c i e a =>
    obtain ⟨x, s, rfl, hx⟩ := one_input hi
    simp only [Rel.copyRewrite, Res.bind_eq_ok] at h
    obtain ⟨⟨e', _⟩, h1, h⟩ := h
    split at h <;> cases h
    · exact alike_refl hR _
    · simp only [Rel.Alike]
      exact ⟨_, _, hx, hf _ _ _ h1, rfl⟩
  | set c is op a =>
    refine rest _ rfl h fun hc => ?_
    cases hc
    simp only [Rel.Alike]
    exact ⟨_, allAlike_iff.2 hi, rfl⟩
  | extSingle c i d =>
    obtain ⟨x, s, rfl, hx⟩ := one_input hi
    refine rest _ rfl h fun hc => ?_
    cases hc
    simp only [Rel.Alike]
    exact ⟨_, hx, rfl⟩
  | extLeaf c d =>
    cases h
    exact alike_refl hR _
  | extMulti c is d =>
    refine rest _ rfl h fun hc => ?_
    cases hc
    simp only [Rel.Alike]
    exact ⟨_, allAlike_iff.2 hi, rfl⟩
  | hashJoin c l r ks p t a =>
    obtain ⟨x, s, y, u, rfl, hx, hy⟩ := two_inputs hi
    simp only [Rel.copyRewrite, Res.bind_eq_ok] at h
    obtain ⟨⟨p', _⟩, h1, h⟩ := h
    split at h <;> cases h
    · exact alike_refl hR _
    · simp only [Rel.Alike]
      exact ⟨_, _, _, hx, hy, hf _ _ _ h1, rfl⟩
  | mergeJoin c l r ks p t a =>
    obtain ⟨x, s, y, u, rfl, hx, hy⟩ := two_inputs hi
    simp only [Rel.copyRewrite, Res.bind_eq_ok] at h
    obtain ⟨⟨p', _⟩, h1, h⟩ := h
    split at h <;> cases h
    · exact alike_refl hR _
    · simp only [Rel.Alike]
      exact ⟨_, _, _, hx, hy, hf _ _ _ h1, rfl⟩
  | write c ns a s op i m =>
    obtain ⟨x, s, rfl, hx⟩ := one_input hi
    refine rest _ rfl h fun hc => ?_
    cases hc
    simp only [Rel.Alike]
    exact ⟨_, hx, rfl⟩
end

/-! ## Meaning -/

theorem sameMeaning_refl (e : Expr) : e.SameMeaning e := ⟨.rfl, rfl, fun _ _ => .rfl⟩

theorem alike_common {R : Expr → Expr → Prop} {r r' : Rel} (h : r.Alike R r') : r'.common = r.common := by
  cases r <;> simp only [Rel.Alike] at h
  · obtain ⟨_, _, _, -, -, -, rfl⟩ := h; rfl
  · obtain ⟨_, _, -, -, rfl⟩ := h; rfl
  · obtain ⟨_, _, _, _, -, -, -, -, rfl⟩ := h; rfl
  · obtain ⟨_, _, -, -, rfl⟩ := h; rfl
  · obtain ⟨_, -, rfl⟩ := h; rfl
  · obtain ⟨_, _, _, -, -, -, rfl⟩ := h; rfl
  · obtain ⟨_, _, -, -, rfl⟩ := h; rfl
  · obtain ⟨_, _, -, -, rfl⟩ := h; rfl
  · obtain ⟨_, -, rfl⟩ := h; rfl
  · obtain ⟨_, -, rfl⟩ := h; rfl
  · subst h; rfl
  · obtain ⟨_, -, rfl⟩ := h; rfl
  · obtain ⟨_, _, _, -, -, -, rfl⟩ := h; rfl
  · obtain ⟨_, _, _, -, -, -, rfl⟩ := h; rfl
  · obtain ⟨_, -, rfl⟩ := h; rfl

theorem getTypes_alike {R : Expr → Expr → Prop} (hR : ∀ e e', R e e' → e'.getType = e.getType) :
    ∀ {es es' : List Expr}, List.Forall₂ R es es' →
      Res.mapL Expr.getType es' = Res.mapL Expr.getType es
  | _, _, .nil => rfl
  | _, _, .cons h hs => by simp only [Res.mapL, hR _ _ h, getTypes_alike hR hs]

theorem index_alike {R : Expr → Expr → Prop} (hR : ∀ e e', R e e' → e'.getType = e.getType)
    {es es' : List Expr} (h : List.Forall₂ R es es') (k : Int) :
    (Res.index es' k >>= Expr.getType) = (Res.index es k >>= Expr.getType) := by
  have hk : ∀ n : Nat, (es'[n]? = none ∧ es[n]? = none) ∨
      ∃ e e', es'[n]? = some e' ∧ es[n]? = some e ∧ R e e' := by
    intro n
    induction h generalizing n with
    | nil => exact .inl ⟨rfl, rfl⟩
    | cons h1 _ ih =>
      cases n with
      | zero => exact .inr ⟨_, _, rfl, rfl, h1⟩
      | succ n => simpa using ih n
  unfold Res.index
  split
  · rcases hk k.toNat with ⟨h1, h2⟩ | ⟨e, e', h1, h2, h3⟩
    · rw [h1, h2]
    · rw [h1, h2]; exact hR _ _ h3
  · rfl

theorem measureTypes_alike {R : Expr → Expr → Prop} : ∀ {ms ms' : List Measure},
    List.Forall₂ (Measure.Alike R) ms ms' → Res.mapL Measure.getType ms' = Res.mapL Measure.getType ms
  | _, _, .nil => rfl
  | _, _, .cons h hs => by
    have : ∀ {m m' : Measure}, m.Alike R m' → m'.getType = m.getType := by
      rintro m m' ⟨-, ⟨h1, h2⟩ | ⟨f, f', h1, h2, h3⟩⟩
      · simp only [Measure.getType, h1, h2]
      · simp only [Measure.getType, h1, h2, h3.1]
    simp only [Res.mapL, this h, measureTypes_alike hs]

mutual
theorem alike_direct {R : Expr → Expr → Prop} (hR : ∀ e e', R e e' → e'.getType = e.getType) :
    ∀ (r r' : Rel), r.Alike R r' → r'.directOutputSchema = r.directOutputSchema
  | .read c b k, r', h => by
    simp only [Rel.Alike] at h
    obtain ⟨_, _, _, -, -, -, rfl⟩ := h
    simp only [Rel.directOutputSchema]
  | .project c i es a, r', h => by
    simp only [Rel.Alike] at h
    obtain ⟨_, _, hi, he, rfl⟩ := h
    simp only [Rel.directOutputSchema, alike_direct hR _ _ hi, alike_common hi, getTypes_alike hR he]
  | .join c x y e p t a, r', h => by
    simp only [Rel.Alike] at h
    obtain ⟨_, _, _, _, hx, hy, -, -, rfl⟩ := h
    cases t <;> simp only [Rel.directOutputSchema, alike_direct hR _ _ hx, alike_common hx,
      alike_direct hR _ _ hy, alike_common hy]
  | .cross c x y a, r', h => by
    simp only [Rel.Alike] at h
    obtain ⟨_, _, hx, hy, rfl⟩ := h
    simp only [Rel.directOutputSchema, alike_direct hR _ _ hx, alike_common hx,
      alike_direct hR _ _ hy, alike_common hy]
  | .fetch c i o n a, r', h => by
    simp only [Rel.Alike] at h
    obtain ⟨_, hi, rfl⟩ := h
    simp only [Rel.directOutputSchema, alike_direct hR _ _ hi, alike_common hi]
  | .aggregate c i ms es sets a, r', h => by
    simp only [Rel.Alike] at h
    obtain ⟨_, _, _, -, hm, he, rfl⟩ := h
    simp only [Rel.directOutputSchema, aggregateColumns, measureTypes_alike hm, index_alike hR he]
  | .sort c i ss a, r', h => by
    simp only [Rel.Alike] at h
    obtain ⟨_, _, hi, -, rfl⟩ := h
    simp only [Rel.directOutputSchema, alike_direct hR _ _ hi, alike_common hi]
  | .filter c i e a, r', h => by
    simp only [Rel.Alike] at h
    obtain ⟨_, _, hi, -, rfl⟩ := h
    simp only [Rel.directOutputSchema, alike_direct hR _ _ hi, alike_common hi]
  | .set c is op a, r', h => by
    simp only [Rel.Alike] at h
    obtain ⟨_, hi, rfl⟩ := h
    cases is with
    | nil => simp only [Rel.AllAlike] at hi; subst hi; rfl
    | cons i is =>
      simp only [Rel.AllAlike] at hi
      obtain ⟨_, _, hi, -, rfl⟩ := hi
      simp only [Rel.directOutputSchema, alike_direct hR _ _ hi, alike_common hi]
  | .extSingle c i d, r', h => by
    simp only [Rel.Alike] at h
    obtain ⟨_, hi, rfl⟩ := h
    cases d <;> simp only [Rel.directOutputSchema, alike_direct hR _ _ hi, alike_common hi]
  | .extLeaf c d, r', h => by
    simp only [Rel.Alike] at h
    subst h
    rfl
  | .extMulti c is d, r', h => by
    simp only [Rel.Alike] at h
    obtain ⟨is', hi, rfl⟩ := h
    have ht := allAlike_types hR is is' hi
    cases d with
    | custom f n => simp only [Rel.directOutputSchema, ht]
    | undecoded n =>
      cases is with
      | nil => simp only [Rel.AllAlike] at hi; subst hi; rfl
      | cons i is =>
        simp only [Rel.AllAlike] at hi
        obtain ⟨j, js, hi, his, rfl⟩ := hi
        cases is with
        | nil =>
          simp only [Rel.AllAlike] at his
          subst his
          simp only [Rel.directOutputSchema, alike_direct hR _ _ hi, alike_common hi]
        | cons k ks =>
          simp only [Rel.AllAlike] at his
          obtain ⟨_, _, -, -, rfl⟩ := his
          simp only [Rel.directOutputSchema]
  | .hashJoin c x y ks p t a, r', h => by
    simp only [Rel.Alike] at h
    obtain ⟨_, _, _, hx, hy, -, rfl⟩ := h
    simp only [Rel.directOutputSchema, alike_direct hR _ _ hx, alike_common hx,
      alike_direct hR _ _ hy, alike_common hy]
  | .mergeJoin c x y ks p t a, r', h => by
    simp only [Rel.Alike] at h
    obtain ⟨_, _, _, hx, hy, -, rfl⟩ := h
    simp only [Rel.directOutputSchema, alike_direct hR _ _ hx, alike_common hx,
      alike_direct hR _ _ hy, alike_common hy]
  | .write c ns a s op i m, r', h => by
    simp only [Rel.Alike] at h
    obtain ⟨_, -, rfl⟩ := h
    cases m <;> simp only [Rel.directOutputSchema]
theorem allAlike_types {R : Expr → Expr → Prop} (hR : ∀ e e', R e e' → e'.getType = e.getType) :
    ∀ (is is' : List Rel), Rel.AllAlike R is is' → Rel.recordTypes is' = Rel.recordTypes is
  | [], _, h => by simp only [Rel.AllAlike] at h; subst h; rfl
  | i :: is, _, h => by
    simp only [Rel.AllAlike] at h
    obtain ⟨_, _, hi, his, rfl⟩ := h
    simp only [Rel.recordTypes, alike_direct hR _ _ hi, alike_common hi, allAlike_types hR _ _ his]
end

theorem alike_recordType {R : Expr → Expr → Prop} (hR : ∀ e e', R e e' → e'.getType = e.getType)
    {r r' : Rel} (h : r.Alike R r') : r'.recordType = r.recordType := by
  simp only [Rel.recordType, alike_direct hR r r' h, alike_common h]

theorem accepts_alike {g : Engine} {e e' : Expr} (h : e.SameMeaning e') (vs : List Val) :
    g.Accepts e' vs ↔ g.Accepts e vs := by
  unfold Engine.Accepts
  rw [h.2.2, h.1]

theorem yieldsList_alike {w : World} : ∀ {es es' : List Expr}, List.Forall₂ Expr.SameMeaning es es' →
    ∀ vs, Expr.YieldsList w es' vs ↔ Expr.YieldsList w es vs
  | _, _, .nil, _ => .rfl
  | _, _, .cons h hs, vs => by simp only [Expr.YieldsList, h.2.2, yieldsList_alike hs]

theorem forall₂_at {α β : Type} {R : α → β → Prop} : ∀ {xs : List α} {ys : List β},
    List.Forall₂ R xs ys → ∀ (k : Nat) (y : β), ys[k]? = some y → ∃ x, xs[k]? = some x ∧ R x y
  | _, _, .nil, _, _, h => by cases h
  | _, _, .cons h _, 0, _, hy => by cases hy; exact ⟨_, rfl, h⟩
  | _, _, .cons _ h, k + 1, y, hy => forall₂_at h k y (by simpa using hy)

theorem sameMeaning_symm {e e' : Expr} (h : e.SameMeaning e') : e'.SameMeaning e :=
  ⟨h.1.symm, h.2.1.symm, fun w v => (h.2.2 w v).symm⟩

theorem groupRow_of_alike {w : World} {es es' : List Expr} (h : List.Forall₂ Expr.SameMeaning es es')
    (set : List UInt32) (vs : List Val) (hg : GroupRow w es set vs) : GroupRow w es' set vs := by
  refine ⟨by rw [hg.1, h.length_eq], fun k e v he hv => ?_⟩
  obtain ⟨x, hx, hs⟩ := forall₂_at h k e he
  have := hg.2 k x v hx hv
  exact ⟨fun h => (hs.2.2 w v).2 (this.1 h), this.2⟩

theorem groupRow_alike {w : World} {es es' : List Expr} (h : List.Forall₂ Expr.SameMeaning es es')
    (set : List UInt32) (vs : List Val) : GroupRow w es' set vs ↔ GroupRow w es set vs :=
  ⟨groupRow_of_alike (List.Forall₂.flip (h.imp fun _ _ => sameMeaning_symm)) set vs,
    groupRow_of_alike h set vs⟩

theorem measureRow_alike {R : Expr → Expr → Prop} {ms ms' : List Measure}
    (h : List.Forall₂ (Measure.Alike R) ms ms') (vs : List Val) : MeasureRow ms' vs ↔ MeasureRow ms vs := by
  have hm : ∀ {m m' : Measure}, m.Alike R m' → ∀ v : Val,
      (∃ f, m'.measure = some f ∧ v.InType f.a.outputType) ↔
        (∃ f, m.measure = some f ∧ v.InType f.a.outputType) := by
    rintro m m' ⟨-, ⟨h1, h2⟩ | ⟨f, f', h1, h2, h3⟩⟩ v
    · rw [h1, h2]
    · rw [h1, h2]
      simp [h3.1]
  unfold MeasureRow
  induction h generalizing vs with
  | nil => rfl
  | cons h1 _ ih =>
    rw [List.forall₂_cons_left_iff, List.forall₂_cons_left_iff]
    simp only [hm h1, ih]

mutual
theorem makes_alike (g : Engine) : ∀ (r r' : Rel), r.Alike Expr.SameMeaning r' →
    ∀ vs, r'.Makes g vs ↔ r.Makes g vs
  | .read c b k, r', h, vs => by
    simp only [Rel.Alike] at h
    obtain ⟨_, _, _, hf, -, hk, rfl⟩ := h
    simp only [Rel.Makes, accepts_alike hf]
    rcases hk with rfl | ⟨rows, rows', rfl, rfl, hr⟩
    · rfl
    · have : ∀ us, (∃ row ∈ rows', Expr.YieldsList (g.at []) row us) ↔
          (∃ row ∈ rows, Expr.YieldsList (g.at []) row us) := by
        intro us
        induction hr with
        | nil => rfl
        | cons h1 _ ih => simp only [List.mem_cons, exists_eq_or_imp, ih, yieldsList_alike h1]
      simp only [this]
  | .project c i es a, r', h, vs => by
    simp only [Rel.Alike] at h
    obtain ⟨_, _, hi, he, rfl⟩ := h
    simp only [Rel.Makes, makes_alike g _ _ hi, alike_common hi, yieldsList_alike he]
  | .join c x y e p t a, r', h, vs => by
    simp only [Rel.Alike] at h
    obtain ⟨_, _, _, _, hx, hy, he, hp, rfl⟩ := h
    simp only [Rel.Makes, alike_recordType (fun _ _ h => h.2.1) hx, alike_recordType (fun _ _ h => h.2.1) hy,
      makes_alike g _ _ hx, alike_common hx, makes_alike g _ _ hy, alike_common hy,
      accepts_alike he, accepts_alike hp]
  | .cross c x y a, r', h, vs => by
    simp only [Rel.Alike] at h
    obtain ⟨_, _, hx, hy, rfl⟩ := h
    simp only [Rel.Makes, makes_alike g _ _ hx, alike_common hx, makes_alike g _ _ hy, alike_common hy]
  | .fetch c i o n a, r', h, vs => by
    simp only [Rel.Alike] at h
    obtain ⟨_, hi, rfl⟩ := h
    simp only [Rel.Makes, makes_alike g _ _ hi, alike_common hi]
  | .aggregate c i ms es sets a, r', h, vs => by
    simp only [Rel.Alike] at h
    obtain ⟨_, _, _, hi, hm, he, rfl⟩ := h
    simp only [Rel.Makes, AggregateRows, makes_alike g _ _ hi, alike_common hi, groupRow_alike he,
      measureRow_alike hm, he.length_eq]
  | .sort c i ss a, r', h, vs => by
    simp only [Rel.Alike] at h
    obtain ⟨_, _, hi, -, rfl⟩ := h
    simp only [Rel.Makes, makes_alike g _ _ hi, alike_common hi]
  | .filter c i e a, r', h, vs => by
    simp only [Rel.Alike] at h
    obtain ⟨_, _, hi, he, rfl⟩ := h
    simp only [Rel.Makes, makes_alike g _ _ hi, alike_common hi, accepts_alike he]
  | .set c is op a, r', h, vs => by
    simp only [Rel.Alike] at h
    obtain ⟨_, hi, rfl⟩ := h
    cases is with
    | nil => simp only [Rel.AllAlike] at hi; subst hi; rfl
    | cons i is =>
      simp only [Rel.AllAlike] at hi
      obtain ⟨_, _, hi, his, rfl⟩ := hi
      simp only [Rel.Makes, makes_alike g _ _ hi, alike_common hi, (anyMakes_alike g _ _ his vs).1,
        (anyMakes_alike g _ _ his vs).2]
  | .extSingle c i d, r', h, vs => by
    simp only [Rel.Alike] at h
    obtain ⟨_, hi, rfl⟩ := h
    simp only [Rel.Makes, alike_recordType (fun _ _ h => h.2.1) hi]
  | .extLeaf c d, r', h, vs => by
    simp only [Rel.Alike] at h
    subst h
    rfl
  | .extMulti c is d, r', h, vs => by
    simp only [Rel.Alike] at h
    obtain ⟨_, hi, rfl⟩ := h
    simp only [Rel.Makes, allAlike_types (fun _ _ (h : Expr.SameMeaning _ _) => h.2.1) _ _ hi]
  | .hashJoin c x y ks p t a, r', h, vs => by
    simp only [Rel.Alike] at h
    obtain ⟨_, _, _, hx, hy, hp, rfl⟩ := h
    simp only [Rel.Makes, alike_recordType (fun _ _ h => h.2.1) hx, alike_recordType (fun _ _ h => h.2.1) hy,
      makes_alike g _ _ hx, alike_common hx, makes_alike g _ _ hy, alike_common hy, accepts_alike hp]
  | .mergeJoin c x y ks p t a, r', h, vs => by
    simp only [Rel.Alike] at h
    obtain ⟨_, _, _, hx, hy, hp, rfl⟩ := h
    simp only [Rel.Makes, alike_recordType (fun _ _ h => h.2.1) hx, alike_recordType (fun _ _ h => h.2.1) hy,
      makes_alike g _ _ hx, alike_common hx, makes_alike g _ _ hy, alike_common hy, accepts_alike hp]
  | .write c ns a s op i m, r', h, vs => by
    simp only [Rel.Alike] at h
    obtain ⟨_, hi, rfl⟩ := h
    cases m <;> simp only [Rel.Makes, makes_alike g _ _ hi, alike_common hi]
theorem anyMakes_alike (g : Engine) : ∀ (is is' : List Rel), Rel.AllAlike Expr.SameMeaning is is' →
    ∀ vs, (Rel.AnyMakes g is' vs ↔ Rel.AnyMakes g is vs) ∧ (Rel.AllMake g is' vs ↔ Rel.AllMake g is vs)
  | [], _, h, vs => by simp only [Rel.AllAlike] at h; subst h; exact ⟨.rfl, .rfl⟩
  | i :: is, _, h, vs => by
    simp only [Rel.AllAlike] at h
    obtain ⟨_, _, hi, his, rfl⟩ := h
    simp only [Rel.AnyMakes, Rel.AllMake, makes_alike g _ _ hi, alike_common hi,
      (anyMakes_alike g _ _ his vs).1, (anyMakes_alike g _ _ his vs).2, and_self]
end

theorem yields_alike (g : Engine) {r r' : Rel} (h : r.Alike Expr.SameMeaning r') (vs : List Val) :
    r'.Yields g vs ↔ r.Yields g vs := by
  simp only [Rel.Yields, makes_alike g r r' h, alike_common h]

end Verif
