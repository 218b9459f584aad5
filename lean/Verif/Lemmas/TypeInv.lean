import Verif.Lemmas.TypeParse
/-!
# What every reading of a text has in common
-/

namespace Verif

/-! ## Parentheses -/

/-- the number of open parentheses after some tokens, `none` when one is closed that was not opened -/
def parens : Nat → List GTok → Option Nat
  | d, [] => some d
  | d, t :: r =>
      if t = .sign "(" then parens (d + 1) r
      else if t = .sign ")" then
        match d with
        | 0 => none
        | d + 1 => parens d r
      else parens d r

/-- What was read of the tokens has its parentheses in pairs. -/
def Eats (ts r : List GTok) : Prop := ∃ c, ts = c ++ r ∧ parens 0 c = some 0

theorem parens_append : ∀ c c' d e, parens d c = some e → parens d (c ++ c') = parens e c'
  | [], _, d, e, h => by
    simp only [parens, Option.some.injEq] at h
    rw [h, List.nil_append]
  | t :: c, c', d, e, h => by
    simp only [List.cons_append]
    unfold parens at h
    conv_lhs => unfold parens
    split
    · rename_i ht
      rw [if_pos ht] at h
      exact parens_append c c' _ _ h
    · rename_i ht
      rw [if_neg ht] at h
      split
      · rename_i ht'
        rw [if_pos ht'] at h
        cases d with
        | zero => simp at h
        | succ d => exact parens_append c c' _ _ h
      · rename_i ht'
        rw [if_neg ht'] at h
        exact parens_append c c' _ _ h

theorem parens_shift : ∀ c d e, parens d c = some e → parens (d + 1) c = some (e + 1)
  | [], d, e, h => by
    simp only [parens, Option.some.injEq] at h ⊢
    omega
  | t :: c, d, e, h => by
    unfold parens at h ⊢
    split
    · rename_i ht
      rw [if_pos ht] at h
      exact parens_shift c _ _ h
    · rename_i ht
      rw [if_neg ht] at h
      split
      · rename_i ht'
        rw [if_pos ht'] at h
        cases d with
        | zero => simp at h
        | succ d => exact parens_shift c _ _ h
      · rename_i ht'
        rw [if_neg ht'] at h
        exact parens_shift c _ _ h

theorem Eats.refl (ts) : Eats ts ts := ⟨[], rfl, rfl⟩

theorem Eats.trans {a b c} (h : Eats a b) (h' : Eats b c) : Eats a c := by
  obtain ⟨x, rfl, hx⟩ := h
  obtain ⟨y, rfl, hy⟩ := h'
  exact ⟨x ++ y, by simp, by rw [parens_append _ _ _ _ hx, hy]⟩

theorem Eats.tok {t r b} (h1 : t ≠ .sign "(") (h2 : t ≠ .sign ")") (h : Eats r b) : Eats (t :: r) b :=
  Eats.trans ⟨[t], rfl, by simp [parens, h1, h2]⟩ h

theorem Eats.paren {a b} (h : Eats a (.sign ")" :: b)) : Eats (.sign "(" :: a) b := by
  obtain ⟨x, rfl, hx⟩ := h
  refine ⟨.sign "(" :: (x ++ [.sign ")"]), by simp, ?_⟩
  simp only [parens, if_true]
  rw [parens_append _ _ _ _ (parens_shift _ _ _ hx)]
  simp [parens]

theorem Eats.mem {a b} (h : Eats a b) : ∀ t ∈ b, t ∈ a := by
  obtain ⟨c, rfl, _⟩ := h
  intro t ht
  exact List.mem_append_right c ht

theorem eatSign_mem {s ts r} (h : r ∈ eatSign s ts) : ts = .sign s :: r := by
  cases ts with
  | nil => simp [eatSign] at h
  | cons t ts =>
    simp only [eatSign] at h
    split at h
    · rename_i ht
      rw [ht, List.mem_singleton.1 h]
    · simp at h

theorem eatSign_eats {s ts r} (h : r ∈ eatSign s ts) (h1 : s ≠ "(") (h2 : s ≠ ")") : Eats ts r := by
  rw [eatSign_mem h]
  exact Eats.tok (by simpa using h1) (by simpa using h2) (Eats.refl r)

theorem optMark_eats {ts x} (h : x ∈ optMark ts) : Eats ts x.2 := by
  unfold optMark at h
  split at h
  · simp only [List.mem_cons, List.not_mem_nil, or_false] at h
    rcases h with rfl | rfl
    · exact Eats.tok (by simp) (by simp) (Eats.refl _)
    · exact Eats.refl _
  · rw [List.mem_singleton.1 h]
    exact Eats.refl _

theorem newlines_eats : ∀ (ts : List GTok) (r), r ∈ newlines ts → Eats ts r
  | [], r, h => by
    simp only [newlines, List.mem_singleton] at h
    rw [h]; exact Eats.refl _
  | t :: ts, r, h => by
    cases t with
    | newline =>
      simp only [newlines, List.mem_append, List.mem_singleton] at h
      rcases h with h | rfl
      · exact Eats.tok (by simp) (by simp) (newlines_eats ts r h)
      · exact Eats.refl _
    | _ =>
      simp only [newlines, List.mem_singleton] at h
      rw [h]; exact Eats.refl _

theorem newlines1_eats {ts r} (h : r ∈ newlines1 ts) : Eats ts r := by
  unfold newlines1 at h
  split at h
  · exact Eats.tok (by simp) (by simp) (newlines_eats _ r h)
  · simp at h

/-! ## Values -/

/-- a token as the lexer makes it -/
def TokOk : GTok → Prop
  | .ident w => IsName (String.ofList w)
  | .anyVar w => IsAnyName (String.ofList w)
  | _ => True

/-- the values that the parser builds -/
def ValOk : TVal → Prop
  | .type t => Parsed t
  | .num _ => True
  | .name s => IsName s
  | .expr e => ParsedExpr e
  | .bad => True

/-- All readings have their parentheses in pairs and their values are in order. -/
def Orderly (P : α → Prop) (R : Readings α) (ts : List GTok) : Prop :=
  (∀ t ∈ ts, TokOk t) → ∀ x ∈ R, Eats ts x.2 ∧ P x.1

theorem fine_nil (P : α → Prop) (ts) : Orderly P [] ts := by
  intro _ x hx
  simp at hx

theorem Orderly.append {P : α → Prop} {R S ts} (h : Orderly P R ts) (h' : Orderly P S ts) : Orderly P (R ++ S) ts := by
  intro ht x hx
  rcases List.mem_append.1 hx with h1 | h1
  · exact h ht x h1
  · exact h' ht x h1

theorem Orderly.bind {P : α → Prop} {Q : β → Prop} {R ts} {f : α × List GTok → Readings β} (h : Orderly P R ts)
    (hf : ∀ v r, P v → Orderly Q (f (v, r)) r) : Orderly Q (R.flatMap f) ts := by
  intro ht x hx
  obtain ⟨⟨v, r⟩, hv, hx⟩ := List.mem_flatMap.1 hx
  obtain ⟨h1, h2⟩ := h ht _ hv
  obtain ⟨h3, h4⟩ := hf v r h2 (fun t htr => ht t (h1.mem t htr)) x hx
  exact ⟨h1.trans h3, h4⟩

theorem Orderly.map {P : α → Prop} {Q : β → Prop} {R ts} {f : α × List GTok → β} (h : Orderly P R ts)
    (hf : ∀ x, P x.1 → Q (f x)) : Orderly Q (R.map fun x => (f x, x.2)) ts := by
  intro ht x hx
  obtain ⟨y, hy, rfl⟩ := List.mem_map.1 hx
  obtain ⟨h1, h2⟩ := h ht y hy
  exact ⟨h1, hf y h2⟩

theorem Orderly.eat {Q : β → Prop} {ts} {f : List GTok → Readings β} (s : String) (h1 : s ≠ "(") (h2 : s ≠ ")")
    (hf : ∀ r, Orderly Q (f r) r) : Orderly Q ((eatSign s ts).flatMap f) ts := by
  intro ht x hx
  obtain ⟨r, hr, hx⟩ := List.mem_flatMap.1 hx
  have he := eatSign_eats hr h1 h2
  obtain ⟨h3, h4⟩ := hf r (fun t htr => ht t (he.mem t htr)) x hx
  exact ⟨he.trans h3, h4⟩

theorem Orderly.close {Q : β → Prop} {ts} {v : β} (s : String) (h1 : s ≠ "(") (h2 : s ≠ ")") (hv : Q v) :
    Orderly Q ((eatSign s ts).map fun r => (v, r)) ts := by
  intro ht x hx
  obtain ⟨r, hr, rfl⟩ := List.mem_map.1 hx
  exact ⟨eatSign_eats hr h1 h2, hv⟩

/-- in parentheses -/
theorem Orderly.inParens {P : α → Prop} {Q : β → Prop} {ts} {R : List GTok → Readings α} {g : α × List GTok → β}
    (h : ∀ r, Orderly P (R r) r) (hg : ∀ x, P x.1 → Q (g x)) :
    Orderly Q ((eatSign "(" ts).flatMap fun r => (R r).flatMap fun x =>
      (eatSign ")" x.2).map fun r => (g x, r)) ts := by
  intro ht y hy
  obtain ⟨r, hr, hy⟩ := List.mem_flatMap.1 hy
  obtain ⟨x, hx, hy⟩ := List.mem_flatMap.1 hy
  obtain ⟨r', hr', rfl⟩ := List.mem_map.1 hy
  have e := eatSign_mem hr
  have e' := eatSign_mem hr'
  obtain ⟨h1, h2⟩ := h r (fun t htr => ht t (by rw [e]; exact List.mem_cons_of_mem _ htr)) x hx
  rw [e'] at h1
  rw [e]
  exact ⟨h1.paren, hg x h2⟩

theorem optMark_fine (ts) : Orderly (fun _ => True) (optMark ts) ts := fun _ _ hx => ⟨optMark_eats hx, trivial⟩

theorem isMarked_mark (q : Bool) : IsMarked (markNullability q) := by
  cases q
  · exact .inr rfl
  · exact .inl rfl

theorem allOf_some {f : α → Option β} : ∀ {vs bs}, allOf f vs = some bs → ∀ b ∈ bs, ∃ v ∈ vs, f v = some b
  | [], bs, h, b, hb => by
    simp only [allOf, Option.some.injEq] at h
    rw [← h] at hb; simp at hb
  | v :: vs, bs, h, b, hb => by
    unfold allOf at h
    split at h
    · rename_i b' bs' h1 h2
      simp only [Option.some.injEq] at h
      rw [← h] at hb
      rcases List.mem_cons.1 hb with rfl | hb
      · exact ⟨v, List.mem_cons_self, h1⟩
      · obtain ⟨v', hv', e⟩ := allOf_some h2 b hb
        exact ⟨v', List.mem_cons_of_mem _ hv', e⟩
    · simp at h

theorem asType_some {v t} (h : TVal.asType v = some t) : v = .type t := by
  cases v <;> simp [TVal.asType] at h
  rw [h]

theorem asExpr_ok {v e} (hv : ValOk v) (h : TVal.asExpr v = some e) : ParsedExpr e := by
  cases v <;> simp [TVal.asExpr] at h
  · rw [← h]; exact .num _
  · rw [← h]; exact .name _ hv
  · rw [← h]; exact hv

theorem Orderly.cons {P : α → Prop} {R t r} (h1 : t ≠ .sign "(") (h2 : t ≠ .sign ")")
    (h : TokOk t → Orderly P R r) : Orderly P R (t :: r) := by
  intro ht x hx
  obtain ⟨h3, h4⟩ := h (ht t List.mem_cons_self) (fun u hu => ht u (List.mem_cons_of_mem _ hu)) x hx
  exact ⟨Eats.tok h1 h2 h3, h4⟩

section
variable {E : Nat → List GTok → Readings TVal} (hE : ∀ p ts, Orderly ValOk (E p ts) ts)
include hE

theorem numericParameter_fine (ts) : Orderly (fun p => ∀ q, p = some q → IsIntParam q) (numericParameter E ts) ts := by
  unfold numericParameter
  refine Orderly.append ?_ ?_
  · split
    · rename_i s r
      intro _ x hx
      rw [List.mem_singleton.1 hx]
      refine ⟨Eats.tok (by simp) (by simp) (Eats.refl _), ?_⟩
      intro q hq
      simp only [numericLiteral] at hq
      split at hq
      · simp only [Option.some.injEq] at hq
        rw [← hq]; trivial
      · simp at hq
    · rename_i s r
      intro ht x hx
      rw [List.mem_singleton.1 hx]
      refine ⟨Eats.tok (by simp) (by simp) (Eats.refl _), ?_⟩
      intro q hq
      simp only [Option.some.injEq] at hq
      rw [← hq]
      exact ht _ List.mem_cons_self
    · exact fine_nil _ _
  · exact (hE 0 ts).map (f := fun _ => none) (by simp)

theorem moreExprs_fine : ∀ n ts, Orderly (fun vs => ∀ v ∈ vs, ValOk v) (moreExprs E n ts) ts
  | 0, ts => by
    intro _ x hx
    simp only [moreExprs, List.mem_singleton] at hx
    rw [hx]
    exact ⟨Eats.refl _, by simp⟩
  | n + 1, ts => by
    simp only [moreExprs]
    refine Orderly.append (Orderly.eat "," (by decide) (by decide) fun r => ?_) ?_
    · refine Orderly.bind (hE 0 r) fun v r hv => ?_
      refine (moreExprs_fine n r).map (f := fun x => v :: x.1) ?_
      intro x hx w hw
      rcases List.mem_cons.1 hw with rfl | hw
      · exact hv
      · exact hx w hw
    · intro _ x hx
      rw [List.mem_singleton.1 hx]
      exact ⟨Eats.refl _, by simp⟩

theorem someExprs_fine (n ts) :
    Orderly (fun vs => vs ≠ [] ∧ ∀ v ∈ vs, ValOk v) (someExprs E n ts) ts := by
  unfold someExprs
  refine Orderly.bind (hE 0 ts) fun v r hv => ?_
  refine (moreExprs_fine hE n r).map (f := fun x => v :: x.1) ?_
  intro x hx
  refine ⟨by simp, ?_⟩
  intro w hw
  rcases List.mem_cons.1 hw with rfl | hw
  · exact hv
  · exact hx w hw

theorem moreFields_eats : ∀ n ts, (∀ t ∈ ts, TokOk t) → ∀ r ∈ moreFields E n ts, Eats ts r
  | 0, ts, _, r, h => by
    simp only [moreFields, List.mem_singleton] at h
    rw [h]; exact Eats.refl _
  | n + 1, ts, ht, r, h => by
    simp only [moreFields, List.mem_append, List.mem_singleton] at h
    rcases h with h | rfl
    · obtain ⟨a, ha, h⟩ := List.mem_flatMap.1 h
      have e := eatSign_eats ha (by decide) (by decide)
      split at h
      · rename_i w b
        obtain ⟨x, hx, h⟩ := List.mem_flatMap.1 h
        have hb : ∀ t ∈ b, TokOk t := fun t htb => ht t (e.mem t (List.mem_cons_of_mem _ htb))
        have e2 := (hE 0 b hb x hx).1
        have e3 := moreFields_eats n x.2 (fun t htx => hb t (e2.mem t htx)) r h
        exact e.trans (Eats.tok (by simp) (by simp) (e2.trans e3))
      · simp at h
    · exact Eats.refl _

theorem funcParams_fine (n ts) :
    Orderly (fun p => ∀ us, PFunc.types p = some us → ∀ u ∈ us, Parsed u) (funcParams E n ts) ts := by
  unfold funcParams
  refine Orderly.append ?_ ?_
  · refine (hE 0 ts).map (f := fun x => PFunc.single x.1) ?_
    intro x hx us hus u hu
    cases hv : x.1 with
    | type t =>
      rw [hv] at hus hx
      simp only [PFunc.types, Option.some.injEq] at hus
      rw [← hus] at hu
      rw [List.mem_singleton.1 hu]
      exact hx
    | bad => rw [hv] at hus; simp [PFunc.types] at hus
    | _ =>
      rw [hv] at hus
      simp only [PFunc.types, Option.some.injEq] at hus
      rw [← hus] at hu; simp at hu
  · refine Orderly.inParens (g := fun x => PFunc.parens x.1) (someExprs_fine hE n) ?_
    intro x hx us hus u hu
    obtain ⟨v, hv, e⟩ := allOf_some hus u hu
    have := hx.2 v hv
    rw [asType_some e] at this
    exact this

end

theorem singleType_ok (s q p) (h : ∀ r, p = some r → IsIntParam r) : ValOk (singleType s q p) := by
  cases p with
  | none => trivial
  | some p => exact Parsed.single _ _ _ (isMarked_mark q) (h p rfl)

theorem decimalType_ok (q p s) (h : ∀ r, p = some r → IsIntParam r) (h' : ∀ r, s = some r → IsIntParam r) :
    ValOk (decimalType q p s) := by
  cases p with
  | none => trivial
  | some p =>
    cases s with
    | none => trivial
    | some s => exact Parsed.decimal _ _ _ (isMarked_mark q) (h p rfl) (h' s rfl)

theorem listType_ok (q v) (h : ValOk v) : ValOk (listType q v) := by
  unfold listType
  split
  · rename_i t e
    rw [asType_some e] at h
    exact Parsed.list _ _ (isMarked_mark q) h
  · trivial

theorem mapType_ok (q k v) (h : ValOk k) (h' : ValOk v) : ValOk (mapType q k v) := by
  unfold mapType
  split
  · rename_i e e'
    rw [asType_some e] at h
    rw [asType_some e'] at h'
    exact Parsed.map _ _ _ (isMarked_mark q) h h'
  · trivial

theorem structType_ok (q vs) (h : vs ≠ [] ∧ ∀ v ∈ vs, ValOk v) : ValOk (structType q vs) := by
  unfold structType
  split
  · rename_i us e
    have hu : ∀ u ∈ us, Parsed u := by
      intro u hu
      obtain ⟨v, hv, e⟩ := allOf_some e u hu
      have := h.2 v hv
      rw [asType_some e] at this
      exact this
    cases us with
    | nil =>
      cases vs with
      | nil => exact absurd rfl h.1
      | cons v vs =>
        simp only [allOf] at e
        split at e <;> simp at e
    | cons u us =>
      exact Parsed.struct _ _ _ (isMarked_mark q) (hu u List.mem_cons_self)
        (fun w hw => hu w (List.mem_cons_of_mem _ hw))
  · trivial

theorem funcType_ok (q ps r) (h : ∀ us, PFunc.types ps = some us → ∀ u ∈ us, Parsed u) (h' : ValOk r) :
    ValOk (funcType q ps r) := by
  unfold funcType
  split
  · rename_i us t e e'
    rw [asType_some e'] at h'
    exact Parsed.func _ _ _ (isMarked_mark q) (h us e) h'
  · trivial

theorem userDefined_ok (q w vs) (hw : IsName (String.ofList w)) (h : ∀ v ∈ vs, ValOk v) :
    ValOk (userDefined q w vs) := by
  unfold userDefined
  split
  · rename_i ps e
    refine Parsed.udt _ _ _ (isMarked_mark q) hw ?_
    intro p hp
    obtain ⟨v, hv, e⟩ := allOf_some e p hp
    have := h v hv
    cases v <;> simp [udtParam] at e
    · rw [← e]; exact .dataType _ this
    · rw [← e]; exact .integer _
    · rw [← e]; exact .string _ this
  · trivial

theorem binaryExpr_ok (op l r) (ho : op ≠ .unknown) (h : ValOk l) (h' : ValOk r) : ValOk (binaryExpr op l r) := by
  unfold binaryExpr
  split
  · rename_i e e'
    exact ParsedExpr.bin _ _ _ ho (asExpr_ok h e) (asExpr_ok h' e')
  · trivial

theorem ifExpr_ok (b c t e) (hc : ValOk c) (ht : ValOk t) (he : ValOk e) : ValOk (ifExpr b c t e) := by
  unfold ifExpr
  split
  · rename_i e1 e2 e3
    exact ParsedExpr.ite _ _ _ _ (asExpr_ok hc e1) (asExpr_ok ht e2) (asExpr_ok he e3)
  · trivial

theorem notExpr_ok (e) (he : ValOk e) : ValOk (notExpr e) := by
  unfold notExpr
  split
  · rename_i e1
    exact ParsedExpr.not _ (asExpr_ok he e1)
  · trivial

theorem toLower_toLower (c : Char) : c.toLower.toLower = c.toLower := by
  by_cases hc : c.val ≥ 'A'.val ∧ c.val ≤ 'Z'.val
  · have h3 : 65 ≤ c.toNat := hc.1
    have h4 : c.toNat ≤ 90 := hc.2
    have : ∀ n, 65 ≤ n → n ≤ 90 → (Char.ofNat n).toLower.toLower = (Char.ofNat n).toLower := by decide
    have := this c.toNat h3 h4
    rwa [Char.ofNat_toNat] at this
  · have : c.toLower = c := by
      unfold Char.toLower
      simp only [hc]
      simp
    rw [this, this]

theorem lower_lower (w : List Char) : ∀ c ∈ (String.ofList (w.map Char.toLower)).toList, c.toLower = c := by
  intro c hc
  rw [String.toList_ofList] at hc
  obtain ⟨d, _, rfl⟩ := List.mem_map.1 hc
  exact toLower_toLower d

theorem isLetter_lower {c : Char} (h : IsLetter c) : IsLetter c.toLower := by
  by_cases hc : c.val ≥ 'A'.val ∧ c.val ≤ 'Z'.val
  · have h3 : 65 ≤ c.toNat := hc.1
    have h4 : c.toNat ≤ 90 := hc.2
    have : ∀ n, 65 ≤ n → n ≤ 90 → isIdStart (Char.ofNat n).toLower = true := by decide
    have := this c.toNat h3 h4
    rw [Char.ofNat_toNat] at this
    exact (isIdStart_iff _).1 this
  · have : c.toLower = c := by
      unfold Char.toLower
      simp only [hc]
      simp
    rwa [this]

theorem isDigit_lower {c : Char} (h : IsDigit c) : IsDigit c.toLower := by
  have : c.toLower = c := by
    unfold Char.toLower
    have hc : ¬ (c.val ≥ 'A'.val ∧ c.val ≤ 'Z'.val) := by
      rintro ⟨h1, _⟩
      have h1 : 65 ≤ c.toNat := h1
      have h2 : c.toNat ≤ 57 := h.2
      omega
    simp only [hc]
    simp
  rwa [this]

theorem isName_lower (w : List Char) (h : IsName (String.ofList w)) :
    IsName (String.ofList (w.map Char.toLower)) := by
  have e : (w.map Char.toLower).map Char.toLower = w.map Char.toLower := by
    rw [List.map_map]
    exact List.map_congr_left fun c _ => toLower_toLower c
  refine ⟨?_, ?_, ?_⟩
  · obtain ⟨c, cs, e, hc, hcs⟩ := h.first
    rw [String.toList_ofList] at e
    refine ⟨c.toLower, cs.map Char.toLower, by rw [e, String.toList_ofList]; rfl, isLetter_lower hc, ?_⟩
    intro d hd
    obtain ⟨x, hx, rfl⟩ := List.mem_map.1 hd
    rcases hcs x hx with h | h
    · exact .inl (isLetter_lower h)
    · exact .inr (isDigit_lower h)
  · have := h.free
    rw [String.toList_ofList] at this ⊢
    rwa [e]
  · have := h.notAny
    rw [String.toList_ofList] at this ⊢
    rwa [e]

theorem functionCall_ok (w vs) (hw : IsName (String.ofList w)) (h : ∀ v ∈ vs, ValOk v) :
    ValOk (functionCall w vs) := by
  unfold functionCall
  split
  · rename_i es e
    refine ParsedExpr.call _ _ (isName_lower w hw) (lower_lower w) ?_
    intro x hx
    obtain ⟨v, hv, e⟩ := allOf_some e x hx
    exact asExpr_ok (h v hv) e
  · trivial

theorem multiline_ok (as t) (hne : as ≠ []) (h : ∀ a ∈ as, IsName (String.ofList a.1) ∧ ValOk a.2) (ht : ValOk t) :
    ValOk (multilineDefinition as t) := by
  unfold multilineDefinition
  split
  · rename_i bs u e e'
    rw [asType_some e'] at ht
    have hb : ∀ b ∈ bs, IsName b.1 ∧ ParsedExpr b.2 := by
      intro b hb
      obtain ⟨a, ha, e⟩ := allOf_some e b hb
      unfold assignmentOf at e
      split at e
      · rename_i x ex
        simp only [Option.some.injEq] at e
        rw [← e]
        exact ⟨(h a ha).1, asExpr_ok (h a ha).2 ex⟩
      · simp at e
    cases bs with
    | nil =>
      cases as with
      | nil => exact absurd rfl hne
      | cons v vs =>
        simp only [allOf] at e
        split at e <;> simp at e
    | cons b bs => exact Parsed.derivation _ _ _ hb ht
  · trivial

theorem binaryOpOf_ok {t op} (h : binaryOpOf t = some op) :
    op ≠ .unknown ∧ t ≠ .sign "(" ∧ t ≠ .sign ")" := by
  unfold binaryOpOf at h
  split at h <;> simp at h <;> subst h <;> simp

section
variable {E : Nat → List GTok → Readings TVal} (hE : ∀ p ts, Orderly ValOk (E p ts) ts)
include hE

theorem parameterizedType_fine (n k ts) : Orderly ValOk (parameterizedType E n k ts) ts := by
  unfold parameterizedType
  split
  · refine Orderly.bind (optMark_fine ts) fun q r _ => Orderly.eat "<" (by decide) (by decide) fun r => ?_
    refine Orderly.bind (numericParameter_fine hE r) fun p r hp => ?_
    exact Orderly.close ">" (by decide) (by decide) (singleType_ok _ _ _ hp)
  · split
    · refine Orderly.bind (optMark_fine ts) fun q r _ => Orderly.eat "<" (by decide) (by decide) fun r => ?_
      refine Orderly.bind (numericParameter_fine hE r) fun p r hp => ?_
      exact Orderly.close ">" (by decide) (by decide) trivial
    · refine Orderly.bind (optMark_fine ts) fun q r _ => Orderly.eat "<" (by decide) (by decide) fun r => ?_
      refine Orderly.bind (numericParameter_fine hE r) fun p r hp => Orderly.eat "," (by decide) (by decide) fun r => ?_
      refine Orderly.bind (numericParameter_fine hE r) fun s r hs => ?_
      exact Orderly.close ">" (by decide) (by decide) (decimalType_ok _ _ _ hp hs)
    · refine Orderly.bind (optMark_fine ts) fun q r _ => Orderly.eat "<" (by decide) (by decide) fun r => ?_
      refine Orderly.bind (someExprs_fine hE n r) fun vs r hv => ?_
      exact Orderly.close ">" (by decide) (by decide) (structType_ok _ _ hv)
    · refine Orderly.bind (optMark_fine ts) fun q r _ => Orderly.eat "<" (by decide) (by decide) fun r => ?_
      dsimp only
      split
      · rename_i w b
        intro ht x hx
        obtain ⟨y, hy, hx⟩ := List.mem_flatMap.1 hx
        obtain ⟨c, hc, hx⟩ := List.mem_flatMap.1 hx
        obtain ⟨d, hd, rfl⟩ := List.mem_map.1 hx
        have hb : ∀ t ∈ b, TokOk t := fun t htb => ht t (List.mem_cons_of_mem _ htb)
        have e1 := (hE 0 b hb y hy).1
        have e2 := moreFields_eats hE n y.2 (fun t hty => hb t (e1.mem t hty)) c hc
        have e3 := eatSign_eats hd (by decide) (by decide)
        exact ⟨Eats.tok (by simp) (by simp) (e1.trans (e2.trans e3)), trivial⟩
      · exact fine_nil _ _
    · refine Orderly.bind (optMark_fine ts) fun q r _ => Orderly.eat "<" (by decide) (by decide) fun r => ?_
      refine Orderly.bind (hE 0 r) fun v r hv => ?_
      exact Orderly.close ">" (by decide) (by decide) (listType_ok _ _ hv)
    · refine Orderly.bind (optMark_fine ts) fun q r _ => Orderly.eat "<" (by decide) (by decide) fun r => ?_
      refine Orderly.bind (hE 0 r) fun k r hk => Orderly.eat "," (by decide) (by decide) fun r => ?_
      refine Orderly.bind (hE 0 r) fun v r hv => ?_
      exact Orderly.close ">" (by decide) (by decide) (mapType_ok _ _ _ hk hv)
    · refine Orderly.bind (optMark_fine ts) fun q r _ => Orderly.eat "<" (by decide) (by decide) fun r => ?_
      refine Orderly.bind (funcParams_fine hE n r) fun k r hk => Orderly.eat "->" (by decide) (by decide) fun r => ?_
      refine Orderly.bind (hE 0 r) fun v r hv => ?_
      exact Orderly.close ">" (by decide) (by decide) (funcType_ok _ _ _ hk hv)
    · split
      · rename_i w b
        intro ht
        have hw : IsName (String.ofList w) := ht _ List.mem_cons_self
        have hb : ∀ t ∈ b, TokOk t := fun t htb => ht t (List.mem_cons_of_mem _ htb)
        have : Orderly ValOk ((optMark b).flatMap fun x =>
            ((eatSign "<" x.2).flatMap fun r => (someExprs E n r).flatMap fun vs =>
              (eatSign ">" vs.2).map fun r => (userDefined x.1 w vs.1, r)) ++ [(userDefined x.1 w [], x.2)]) b := by
          refine Orderly.bind (optMark_fine b) fun q r _ => Orderly.append ?_ ?_
          · refine Orderly.eat "<" (by decide) (by decide) fun r => ?_
            refine Orderly.bind (someExprs_fine hE n r) fun vs r hv => ?_
            exact Orderly.close ">" (by decide) (by decide) (userDefined_ok _ _ _ hw hv.2)
          · intro _ x hx
            rw [List.mem_singleton.1 hx]
            exact ⟨Eats.refl _, userDefined_ok _ _ [] hw (by simp)⟩
        intro x hx
        obtain ⟨h1, h2⟩ := this hb x hx
        exact ⟨Eats.tok (by simp) (by simp) h1, h2⟩
      · exact fine_nil _ _
    · exact fine_nil _ _

theorem typeDef_fine (n ts) : Orderly ValOk (typeDef E n ts) ts := by
  unfold typeDef
  split
  · rename_i ts
    intro ht x hx
    obtain ⟨h1, h2⟩ := (optMark_fine ts).map (Q := ValOk)
      (f := fun x => .type (.any (markNullability x.1) "any"))
      (fun x _ => Parsed.any _ _ (isMarked_mark _) (.inl rfl)) (fun t h => ht t (List.mem_cons_of_mem _ h)) x hx
    exact ⟨Eats.tok (by simp) (by simp) h1, h2⟩
  · rename_i s ts
    intro ht x hx
    obtain ⟨h1, h2⟩ := (optMark_fine ts).map (Q := ValOk)
      (f := fun x => .type (.any (markNullability x.1) (String.ofList s)))
      (fun x _ => Parsed.any _ _ (isMarked_mark _) (ht _ List.mem_cons_self))
      (fun t h => ht t (List.mem_cons_of_mem _ h)) x hx
    exact ⟨Eats.tok (by simp) (by simp) h1, h2⟩
  · rename_i k ts _
    intro ht x hx
    have ht' := fun t (h : t ∈ ts) => ht t (List.mem_cons_of_mem _ h)
    split at hx
    · rename_i p _
      obtain ⟨h1, h2⟩ := (optMark_fine ts).map (Q := ValOk)
        (f := fun x => .type (.prim p (markNullability x.1) 0))
        (fun x _ => Parsed.prim _ _ (isMarked_mark _)) ht' x hx
      exact ⟨Eats.tok (by simp) (by simp) h1, h2⟩
    · obtain ⟨h1, h2⟩ := parameterizedType_fine hE n k ts ht' x hx
      exact ⟨Eats.tok (by simp) (by simp) h1, h2⟩
  · exact fine_nil _ _

theorem assignmentLine_fine (ts) :
    Orderly (fun a => IsName (String.ofList a.1) ∧ ValOk a.2) (assignmentLine E ts) ts := by
  unfold assignmentLine
  split
  · rename_i w r
    intro ht
    have hw : IsName (String.ofList w) := ht _ List.mem_cons_self
    have hb : ∀ t ∈ r, TokOk t := fun t htb => ht t (List.mem_cons_of_mem _ htb)
    have : Orderly (fun a => IsName (String.ofList a.1) ∧ ValOk a.2) ((eatSign "=" r).flatMap fun r =>
        (E 0 r).flatMap fun x => (newlines1 x.2).map fun r => ((w, x.1), r)) r := by
      refine Orderly.eat "=" (by decide) (by decide) fun r => Orderly.bind (hE 0 r) fun v r hv => ?_
      intro _ x hx
      obtain ⟨r', hr', rfl⟩ := List.mem_map.1 hx
      exact ⟨newlines1_eats hr', hw, hv⟩
    intro x hx
    obtain ⟨h1, h2⟩ := this hb x hx
    exact ⟨Eats.tok (by simp) (by simp) h1, h2⟩
  · exact fine_nil _ _

theorem moreAssignments_fine : ∀ n ts,
    Orderly (fun as => ∀ a ∈ as, IsName (String.ofList a.1) ∧ ValOk a.2) (moreAssignments E n ts) ts
  | 0, ts => by
    intro _ x hx
    simp only [moreAssignments, List.mem_singleton] at hx
    rw [hx]
    exact ⟨Eats.refl _, by simp⟩
  | n + 1, ts => by
    simp only [moreAssignments]
    refine Orderly.append (Orderly.bind (assignmentLine_fine hE ts) fun a r ha => ?_) ?_
    · refine (moreAssignments_fine n r).map (f := fun x => a :: x.1) ?_
      intro x hx w hw
      rcases List.mem_cons.1 hw with rfl | hw
      · exact ha
      · exact hx w hw
    · intro _ x hx
      rw [List.mem_singleton.1 hx]
      exact ⟨Eats.refl _, by simp⟩

theorem primaryExpr_fine (n ts) : Orderly ValOk (primaryExpr E n ts) ts := by
  unfold primaryExpr
  refine Orderly.append (Orderly.append (Orderly.append ?_ ?_) (typeDef_fine hE n ts)) ?_
  · exact Orderly.inParens (g := fun x => x.1) (hE 0) fun x hx => hx
  · refine Orderly.bind (assignmentLine_fine hE ts) fun a r ha => ?_
    refine Orderly.bind (moreAssignments_fine hE n r) fun as r has => ?_
    refine Orderly.bind (typeDef_fine hE n r) fun t r ht => ?_
    intro _ x hx
    obtain ⟨r', hr', rfl⟩ := List.mem_map.1 hx
    refine ⟨newlines_eats _ _ hr', multiline_ok _ _ (by simp) ?_ ht⟩
    intro b hb
    rcases List.mem_cons.1 hb with rfl | hb
    · exact ha
    · exact has b hb
  · split
    · refine Orderly.cons (by simp) (by simp) fun _ => ?_
      intro _ x hx
      rw [List.mem_singleton.1 hx]
      refine ⟨Eats.refl _, ?_⟩
      unfold literalNumber
      split <;> trivial
    · rename_i w r
      refine Orderly.cons (by simp) (by simp) fun hw => ?_
      refine Orderly.append ?_ ?_
      · exact (optMark_fine r).map (f := fun _ => TVal.name (String.ofList w)) fun _ _ => hw
      · intro ht y hy
        obtain ⟨a, ha, hy⟩ := List.mem_flatMap.1 hy
        have e := eatSign_mem ha
        have hta : ∀ t ∈ a, TokOk t := fun t h => ht t (by rw [e]; exact List.mem_cons_of_mem _ h)
        rcases List.mem_append.1 hy with hy | hy
        · obtain ⟨x, hx, hy⟩ := List.mem_flatMap.1 hy
          obtain ⟨b, hb, rfl⟩ := List.mem_map.1 hy
          obtain ⟨h1, h2⟩ := someExprs_fine hE n a hta x hx
          rw [eatSign_mem hb] at h1
          rw [e]
          exact ⟨h1.paren, functionCall_ok _ _ hw h2.2⟩
        · obtain ⟨b, hb, rfl⟩ := List.mem_map.1 hy
          rw [e, eatSign_mem hb]
          exact ⟨(Eats.refl _).paren, functionCall_ok _ [] hw (by simp)⟩
    · refine Orderly.cons (by simp) (by simp) fun _ => ?_
      refine Orderly.bind (hE 0 _) fun c r hc => ?_
      dsimp only
      split
      · refine Orderly.cons (by simp) (by simp) fun _ => ?_
        refine Orderly.bind (hE 0 _) fun t r ht => ?_
        dsimp only
        split
        · refine Orderly.cons (by simp) (by simp) fun _ => ?_
          exact (hE 3 _).map (f := fun x => ifExpr false c t x.1) fun x hx => ifExpr_ok _ _ _ _ hc ht hx
        · exact fine_nil _ _
      · exact fine_nil _ _
    · refine Orderly.cons (by simp) (by simp) fun _ => ?_
      exact (hE 2 _).map (f := fun x => notExpr x.1) fun x hx => notExpr_ok _ hx
    · exact fine_nil _ _

theorem exprLoop_fine (p) : ∀ n v ts, ValOk v → Orderly ValOk (exprLoop E p n v ts) ts
  | 0, v, ts, hv => by
    intro _ x hx
    simp only [exprLoop, List.mem_singleton] at hx
    rw [hx]
    exact ⟨Eats.refl _, hv⟩
  | n + 1, v, ts, hv => by
    simp only [exprLoop]
    refine Orderly.append ?_ ?_
    · split
      · exact fine_nil _ _
      · rename_i t r
        refine Orderly.append ?_ ?_
        · split
          · rename_i op ho
            obtain ⟨h1, h2, h3⟩ := binaryOpOf_ok ho
            split
            · refine Orderly.cons h2 h3 fun _ => ?_
              exact Orderly.bind (hE 5 r) fun w r hw => exprLoop_fine p n _ r (binaryExpr_ok _ _ _ h1 hv hw)
            · exact fine_nil _ _
          · exact fine_nil _ _
        · split
          · rename_i h
            refine Orderly.cons (by rw [h.1]; simp) (by rw [h.1]; simp) fun _ => ?_
            refine Orderly.bind (hE 0 r) fun a r ha => Orderly.eat ":" (by decide) (by decide) fun r => ?_
            exact Orderly.bind (hE 2 r) fun b r hb => exprLoop_fine p n _ r (ifExpr_ok _ _ _ _ hv ha hb)
          · exact fine_nil _ _
    · intro _ x hx
      rw [List.mem_singleton.1 hx]
      exact ⟨Eats.refl _, hv⟩

end

theorem exprReadings_fine : ∀ n p ts, Orderly ValOk (exprReadings n p ts) ts
  | 0, _, _ => fine_nil _ _
  | n + 1, p, ts => by
    unfold exprReadings
    exact Orderly.bind (primaryExpr_fine (exprReadings_fine n) n ts)
      fun v r hv => exprLoop_fine (exprReadings_fine n) p n v r hv

/-! ## The lexer -/

theorem wordTok_ok (c cs) (hc : isIdStart c = true) (hcs : ∀ d ∈ cs, isIdChar d = true) :
    TokOk (wordTok (c :: cs)) := by
  have first : ∃ a as, (String.ofList (c :: cs)).toList = a :: as ∧ IsLetter a ∧ ∀ d ∈ as, IsLetter d ∨ IsDigit d :=
    ⟨c, cs, String.toList_ofList, (isIdStart_iff c).1 hc, fun d hd => (isIdChar_iff d).1 (hcs d hd)⟩
  unfold wordTok
  simp only
  split
  · trivial
  · rename_i hk
    have free : String.ofList ((String.ofList (c :: cs)).toList.map Char.toLower) ∉ reservedWords := by
      rw [String.toList_ofList]
      exact fun h => hk ((keywords_reserved _).2 h)
    split
    · rename_i d e
      split
      · rename_i hd
        exact .inr ⟨d, (isDigitChar_iff d).1 hd, by rw [String.toList_ofList]; exact e⟩
      · rename_i hd
        refine ⟨first, free, ?_⟩
        intro x hx h
        rw [String.toList_ofList, e] at h
        simp only [List.cons.injEq, true_and, and_true] at h
        rw [← h] at hx
        exact hd ((isDigitChar_iff d).2 hx)
    · rename_i hne
      refine ⟨first, free, ?_⟩
      intro x _ h
      rw [String.toList_ofList] at h
      exact hne x h

theorem nextTok_ok (c cs t) (h : (nextTok c cs).1 = some t) : TokOk t := by
  unfold nextTok at h
  split at h
  · rename_i hc
    simp only at h
    split at h
    · simp only [Option.some.injEq] at h
      rw [← h]; trivial
    · simp only [Option.some.injEq] at h
      rw [← h]
      exact wordTok_ok c _ hc (fun d hd => by
        have := List.all_takeWhile (p := isIdChar) (l := cs)
        rw [List.all_eq_true] at this
        exact this d hd)
  · repeat' split at h
    all_goals first
      | (simp only [Option.some.injEq] at h; rw [← h]; trivial)
      | (simp at h)

theorem lexN_ok : ∀ n cs, ∀ t ∈ lexN n cs, TokOk t
  | 0, cs, t, ht => by simp [lexN] at ht
  | n + 1, [], t, ht => by simp [lexN] at ht
  | n + 1, c :: cs, t, ht => by
    simp only [lexN] at ht
    split at ht
    · rename_i u r e
      rcases List.mem_cons.1 ht with rfl | ht
      · exact nextTok_ok c cs _ (by rw [e])
      · exact lexN_ok n r t ht
    · rename_i r e
      exact lexN_ok n r t ht

theorem lexText_ok (cs) : ∀ t ∈ lexText cs, TokOk t := lexN_ok _ _

theorem parseType_parsed (s t) (h : parseType s = .ok t) : Parsed t := by
  unfold parseType at h
  split at h
  · rename_i u hu
    simp only [Res.ok.injEq] at h
    subst h
    unfold startRule at hu
    split at hu
    · rename_i v r hf
      simp only [Option.some.injEq] at hu
      subst hu
      exact (exprReadings_fine _ _ _ (lexText_ok _) _ (List.mem_of_find?_eq_some hf)).2
    · simp at hu
  · simp at h

end Verif
