import Verif.Spec.RefText
import Verif.Lemmas.Time
import Verif.Lemmas.LocalTypes
import Verif.Model.ExprProto
/-!
# C138: what the text of a field reference tells
-/

namespace Verif

namespace RefText

theorem cut {c : UInt8} : ∀ {u v x y : Bytes}, c ∉ u → c ∉ v → u ++ c :: x = v ++ c :: y → u = v ∧ x = y
  | [], [], _, _, _, _, h => ⟨rfl, by simpa using h⟩
  | [], b :: v, _, _, _, hv, h => by
    simp at h; exact absurd h.1 (by rintro rfl; simp at hv)
  | a :: u, [], _, _, hu, _, h => by
    simp at h; exact absurd h.1 (by rintro rfl; simp at hu)
  | a :: u, b :: v, _, _, hu, hv, h => by
    simp only [List.cons_append, List.cons.injEq] at h
    obtain ⟨rfl, h⟩ := h
    simp only [List.mem_cons, not_or] at hu hv
    obtain ⟨rfl, h2⟩ := cut hu.2 hv.2 h
    exact ⟨rfl, h2⟩

theorem int_no {i : Int} {b : UInt8} (hb : b ≠ 45) (h : 57 < b.toNat ∨ b.toNat < 48) : b ∉ intText i := by
  intro hm
  rcases intText_bytes i b hm with h1 | h1
  · exact hb h1
  · omega

theorem int_inj {i j : Int} (hi : IsInt64 i) (hj : IsInt64 j) (h : intText i = intText j) : i = j := by
  have h1 := atoi_intText i hi
  rw [h, atoi_intText j hj] at h1
  cases h1; rfl

theorem int32_is64 (i : Int32) : IsInt64 i.toInt := by
  have := i.toInt_lt; have := i.le_toInt
  exact ⟨by omega, by omega⟩

theorem int32_inj {i j : Int32} (h : intText i.toInt = intText j.toInt) : i = j :=
  Int32.toInt_inj.1 (int_inj (int32_is64 i) (int32_is64 j) h)

theorem uint32_inj {i j : UInt32} (h : intText i.toNat = intText j.toNat) : i = j := by
  have h1 := i.toNat_lt; have h2 := j.toNat_lt
  have := int_inj (i := i.toNat) (j := j.toNat) ⟨by omega, by omega⟩ ⟨by omega, by omega⟩ h
  exact UInt32.toNat_inj.1 (by omega)

theorem lit_paren {f : TcFmt} : ∀ {l : Lit} {s : Bytes}, l.string f = .ok s → (40 : UInt8) ∈ s := by
  intro l s h
  unfold Lit.string at h
  split at h
  · cases h; simp
  · cases h; simp
  · cases h; simp
  · obtain ⟨t, _, h⟩ := Res.bind_eq_ok.1 h
    obtain ⟨v, _, h⟩ := Res.bind_eq_ok.1 h
    cases h; simp

/-- what comes after a path does not begin like a segment -/
def Stops (r : Bytes) : Prop := ∀ x, r ≠ 46 :: x

theorem path {f : TcFmt} : ∀ {p q : Seg} {s t r r' : Bytes}, Seg.childString f p = .ok s →
    Seg.childString f q = .ok t → p.KeysClosed f → q.KeysClosed f → Stops r → Stops r' → s ++ r = t ++ r' →
    SamePath f p q ∧ r = r' := by
  intro p
  induction p with
  | nil =>
    intro q s t r r' hs ht _ _ hr _ h
    cases q <;> simp only [Seg.childString, Res.bind_eq_ok, Res.ok.injEq] at hs ht
    · subst hs ht; exact ⟨.done, by simpa using h⟩
    all_goals
      exfalso
      subst hs
    · obtain ⟨_, _, _, _, rfl⟩ := ht; exact hr _ (by simpa using h)
    · obtain ⟨_, _, rfl⟩ := ht; exact hr _ (by simpa using h)
    · obtain ⟨_, _, rfl⟩ := ht; exact hr _ (by simpa using h)
  | structField i p ih =>
    intro q s t r r' hs ht hp hq hr hr' h
    cases q <;> simp only [Seg.childString, Res.bind_eq_ok, Res.ok.injEq] at hs ht
    · obtain ⟨_, _, rfl⟩ := hs; subst ht; exact absurd h.symm (by simpa using hr' _)
    · obtain ⟨_, _, rfl⟩ := hs; obtain ⟨_, _, _, _, rfl⟩ := ht; simp at h
    · obtain ⟨s', hs, rfl⟩ := hs; obtain ⟨t', ht, rfl⟩ := ht
      simp only [List.append_assoc, List.cons_append, List.nil_append, List.cons.injEq, true_and] at h
      obtain ⟨h1, h2⟩ := cut (int_no (by decide) (by decide)) (int_no (by decide) (by decide)) h
      have := int32_inj h1
      subst this
      obtain ⟨h3, h4⟩ := ih hs ht hp hq hr hr' h2
      exact ⟨.field _ _ _ h3, h4⟩
    · obtain ⟨_, _, rfl⟩ := hs; obtain ⟨_, _, rfl⟩ := ht; simp at h
  | listElement i p ih =>
    intro q s t r r' hs ht hp hq hr hr' h
    cases q <;> simp only [Seg.childString, Res.bind_eq_ok, Res.ok.injEq] at hs ht
    · obtain ⟨_, _, rfl⟩ := hs; subst ht; exact absurd h.symm (by simpa using hr' _)
    · obtain ⟨_, _, rfl⟩ := hs; obtain ⟨_, _, k, hk, rfl⟩ := ht
      simp only [List.append_assoc, List.cons_append, List.nil_append, List.cons.injEq, true_and] at h
      obtain ⟨h1, -⟩ := cut (int_no (by decide) (by decide)) (hq.1 _ hk) h
      exact absurd (h1 ▸ lit_paren hk) (int_no (by decide) (by decide))
    · obtain ⟨_, _, rfl⟩ := hs; obtain ⟨_, _, rfl⟩ := ht; simp at h
    · obtain ⟨s', hs, rfl⟩ := hs; obtain ⟨t', ht, rfl⟩ := ht
      simp only [List.append_assoc, List.cons_append, List.nil_append, List.cons.injEq, true_and] at h
      obtain ⟨h1, h2⟩ := cut (int_no (by decide) (by decide)) (int_no (by decide) (by decide)) h
      have := int32_inj h1
      subst this
      obtain ⟨h3, h4⟩ := ih hs ht hp hq hr hr' h2
      exact ⟨.element _ _ _ h3, h4⟩
  | mapKey k p ih =>
    intro q s t r r' hs ht hp hq hr hr' h
    cases q <;> simp only [Seg.childString, Res.bind_eq_ok, Res.ok.injEq] at hs ht
    · obtain ⟨_, _, _, _, rfl⟩ := hs; subst ht; exact absurd h.symm (by simpa using hr' _)
    · obtain ⟨s', hs, k', hk, rfl⟩ := hs; obtain ⟨t', ht, l', hl, rfl⟩ := ht
      simp only [List.append_assoc, List.cons_append, List.nil_append, List.cons.injEq, true_and] at h
      obtain ⟨h1, h2⟩ := cut (hp.1 _ hk) (hq.1 _ hl) h
      subst h1
      obtain ⟨h3, h4⟩ := ih hs ht hp.2 hq.2 hr hr' h2
      exact ⟨.key _ _ _ _ _ hk hl h3, h4⟩
    · obtain ⟨_, _, _, _, rfl⟩ := hs; obtain ⟨_, _, rfl⟩ := ht; simp at h
    · obtain ⟨_, _, k', hk, rfl⟩ := hs; obtain ⟨_, _, rfl⟩ := ht
      simp only [List.append_assoc, List.cons_append, List.nil_append, List.cons.injEq, true_and] at h
      obtain ⟨h1, -⟩ := cut (hp.1 _ hk) (int_no (by decide) (by decide)) h
      exact absurd (h1.symm ▸ lit_paren hk) (int_no (by decide) (by decide))

/-- a present path is printed like a child, and begins with a point -/
theorem seg_child {f : TcFmt} {p : Seg} {s : Bytes} (h : p.string f = .ok s) :
    Seg.childString f p = .ok s ∧ ∃ x, s = 46 :: x := by
  cases p <;> simp only [Seg.string, Res.bind_eq_ok, Res.ok.injEq, reduceCtorEq] at h
  · obtain ⟨a, h1, b, h2, rfl⟩ := h
    exact ⟨by simp only [Seg.childString, h1, h2, Res.ok_bind], _, rfl⟩
  · obtain ⟨a, h1, rfl⟩ := h
    exact ⟨by simp only [Seg.childString, h1, Res.ok_bind], _, rfl⟩
  · obtain ⟨a, h1, rfl⟩ := h
    exact ⟨by simp only [Seg.childString, h1, Res.ok_bind], _, rfl⟩

/-- the text of the type after the path -/
def typeText : Option Ty → Bytes
  | some t => [32, 61, 62, 32] ++ utf8 t.string
  | none => []

theorem typeText_stops (k : Option Ty) : Stops (typeText k) := by
  cases k <;> simp [typeText, Stops]

theorem parts {f : TcFmt} {e : Expr → Res Bytes} {root : ERoot} {ref : ERef} {k : Option Ty} {s : Bytes}
    (h : fieldRefString f e root ref k = .ok s) :
    ∃ r p t, root.string e = .ok r ∧ ref = .seg p ∧ p.string f = .ok t ∧ s = r ++ t ++ typeText k := by
  unfold fieldRefString at h
  obtain ⟨r, hr, h⟩ := Res.bind_eq_ok.1 h
  cases ref with
  | nil => simp at h
  | mask => simp at h
  | seg p =>
    obtain ⟨t, ht, h⟩ := Res.bind_eq_ok.1 h
    cases h
    exact ⟨r, p, t, hr, rfl, ht, by cases k <;> rfl⟩

theorem root_cut {e : Expr → Res Bytes} {a b : ERoot} {r r' t t' : Bytes} (ha : a.Present) (hb : b.Present)
    (ha' : a.Closed e) (hb' : b.Closed e)
    (hr : a.string e = .ok r) (hr' : b.string e = .ok r') (ht : ∃ x, t = 46 :: x) (ht' : ∃ x, t' = 46 :: x)
    (h : r ++ t = r' ++ t') : SameRoot e a b ∧ t = t' := by
  have hex : ∀ {x r}, ERoot.Present (.expr x) → ERoot.string e (.expr x) = .ok r →
      ∃ s, e x = .ok s ∧ r = [91, 114, 111, 111, 116, 58, 40] ++ s ++ [41, 93] := by
    intro x r hx hr
    cases x <;> simp only [ERoot.Present] at hx <;>
      simp only [ERoot.string, Res.bind_eq_ok, Res.ok.injEq] at hr <;>
      exact hr.elim fun s h => ⟨s, h.1, h.2.symm⟩
  obtain ⟨x, rfl⟩ := ht
  obtain ⟨x', rfl⟩ := ht'
  cases a with
  | expr u =>
    obtain ⟨s, hs, rfl⟩ := hex ha hr
    cases b with
    | expr v =>
      obtain ⟨s', hs', rfl⟩ := hex hb hr'
      simp only [List.append_assoc, List.cons_append, List.nil_append, List.cons.injEq, true_and] at h
      have h1 : (s ++ [41]) ++ 93 :: 46 :: x = (s' ++ [41]) ++ 93 :: 46 :: x' := by simpa using h
      obtain ⟨h2, h3⟩ := cut (by simpa using ha' _ hs) (by simpa using hb' _ hs') h1
      have h2 : s = s' := by simpa using h2
      subst h2
      exact ⟨.expr _ _ _ hs hs', h3⟩
    | _ => simp only [ERoot.string, Res.ok.injEq] at hr'; subst hr'; simp at h
  | _ =>
    cases b with
    | expr v =>
      obtain ⟨s', hs', rfl⟩ := hex hb hr'
      simp only [ERoot.string, Res.ok.injEq] at hr; subst hr; simp at h
    | _ =>
      simp only [ERoot.string, Res.ok.injEq] at hr hr'
      subst hr hr'
      first
        | (simp at h; done)
        | (exact ⟨.same _, by simpa using h⟩)
        | (simp only [List.append_assoc, List.cons_append, List.nil_append, List.cons.injEq, true_and] at h
           obtain ⟨h1, h2⟩ := cut (int_no (by decide) (by decide)) (int_no (by decide) (by decide)) h
           have := uint32_inj h1
           subst this
           exact ⟨.same _, by simpa using h2⟩)

end RefText

open RefText

/-- C138 in full: texts tell root, path and the text of the type. -/
def C138_statement : Prop :=
  ∀ (f : TcFmt) (e : Expr → Res Bytes) (a b : ERoot) (p q : Seg) (k l : Option Ty) (s : Bytes), a.Present →
    b.Present → fieldRefString f e a (.seg p) k = .ok s → fieldRefString f e b (.seg q) l = .ok s →
    SameRoot e a b ∧ SamePath f p q ∧ k.map Ty.string = l.map Ty.string

theorem utf8_inj {s t : String} (h : utf8 s = utf8 t) : s = t := by
  unfold utf8 at h
  apply String.toByteArray_inj.1
  cases hs : s.toByteArray
  cases ht : t.toByteArray
  simp only [String.toUTF8, hs, ht] at h
  rw [Array.toList_inj.1 h]

/-- C138 for map keys and root expressions that read without closing brackets. Missing: string keys with brackets
in them (`C138_negation`). -/
theorem C138_tells_partial {f : TcFmt} {e : Expr → Res Bytes} {a b : ERoot} {p q : ERef} {k l : Option Ty} {s : Bytes}
    (ha : a.Present) (hb : b.Present) (ha' : a.Closed e) (hb' : b.Closed e)
    (hp : ∀ x, p = .seg x → x.KeysClosed f) (hq : ∀ x, q = .seg x → x.KeysClosed f)
    (h1 : fieldRefString f e a p k = .ok s) (h2 : fieldRefString f e b q l = .ok s) :
    SameRoot e a b ∧ (∃ x y, p = .seg x ∧ q = .seg y ∧ SamePath f x y) ∧ k.map Ty.string = l.map Ty.string := by
  obtain ⟨r, x, t, hr, rfl, ht, rfl⟩ := parts h1
  obtain ⟨r', y, t', hr', rfl, ht', hs⟩ := parts h2
  obtain ⟨c1, w, rfl⟩ := seg_child ht
  obtain ⟨c2, w', rfl⟩ := seg_child ht'
  simp only [List.append_assoc] at hs
  obtain ⟨hsame, hs⟩ := root_cut ha hb ha' hb' hr hr' ⟨_, rfl⟩ ⟨_, rfl⟩ hs
  obtain ⟨h3, h4⟩ := path c1 c2 (hp _ rfl) (hq _ rfl) (typeText_stops k) (typeText_stops l) hs
  refine ⟨hsame, ⟨_, _, rfl, rfl, h3⟩, ?_⟩
  cases k <;> cases l <;> simp [typeText] at h4 ⊢
  exact utf8_inj h4

/-- C138, converse: references to the same place read the same. -/
theorem C138_same {f : TcFmt} {e : Expr → Res Bytes} {a b : ERoot} {p q : Seg} {k l : Option Ty}
    (ha : a.Present) (hb : b.Present) (hr : SameRoot e a b) (h : SamePath f p q)
    (hk : k.map Ty.string = l.map Ty.string) :
    fieldRefString f e a (.seg p) k = fieldRefString f e b (.seg q) l := by
  have hc : Seg.childString f p = Seg.childString f q ∧ p.string f = q.string f := by
    induction h with
    | done => exact ⟨rfl, rfl⟩
    | field i p q _ ih => simp only [Seg.childString, Seg.string, ih.1, and_self]
    | element i p q _ ih => simp only [Seg.childString, Seg.string, ih.1, and_self]
    | key k l s p q h1 h2 _ ih => simp only [Seg.childString, Seg.string, ih.1, h1, h2, and_self]
  have hr' : a.string e = b.string e := by
    cases hr with
    | same => rfl
    | expr x y s h1 h2 =>
      have : ∀ z, ERoot.Present (.expr z) → e z = .ok s →
          ERoot.string e (.expr z) = .ok ([91, 114, 111, 111, 116, 58, 40] ++ s ++ [41, 93]) := by
        intro z hz h
        cases z <;> simp_all [ERoot.Present, ERoot.string]
      rw [this x ha h1, this y hb h2]
  simp only [fieldRefString, hc.2, hr']
  cases k <;> cases l <;> simp_all

/-- the texts of simple types have no parentheses -/
theorem RefText.prim_paren (k : Prim) (n : Nullability) (v : UInt32) : (40 : UInt8) ∉ utf8 (Ty.prim k n v).string := by
  simp only [Ty.string, Ty.pieces, strNullable]
  split <;> cases k <;> decide +kernel

theorem RefText.number_text {f : TcFmt} {v : PVal} {i : Int} (h : v.number = some i) :
    v.valueString f = intText i ∧ IsInt64 i := by
  cases v <;> simp only [PVal.number, Option.some.injEq, reduceCtorEq] at h <;> subst h
  · rename_i i; have := i.toInt_lt; have := i.le_toInt; exact ⟨rfl, by omega, by omega⟩
  · rename_i i; have := i.toInt_lt; have := i.le_toInt; exact ⟨rfl, by omega, by omega⟩
  · exact ⟨rfl, int32_is64 _⟩
  · rename_i i; have := i.toInt_lt; have := i.le_toInt; exact ⟨rfl, by omega, by omega⟩

/-- C138, keys of simple types that read the same have types that read the same, and the same numbers and strings. -/
theorem C138_keys {f : TcFmt} {v w : PVal} {k m : Prim} {n o : Nullability} {a b : UInt32} {s : Bytes}
    (h1 : (Lit.prim v (.prim k n a)).string f = .ok s) (h2 : (Lit.prim w (.prim m o b)).string f = .ok s) :
    (Ty.prim k n a).string = (Ty.prim m o b).string ∧
      (∀ i j, v.number = some i → w.number = some j → i = j) ∧ (∀ x y, v = .string x → w = .string y → x = y) := by
  simp only [Lit.string, Lit.getType, Res.ok_bind, Lit.valueString, Res.ok.injEq] at h1 h2
  rw [← h2] at h1
  simp only [List.append_assoc, List.cons_append] at h1
  obtain ⟨h3, h4⟩ := cut (prim_paren k n a) (prim_paren m o b) h1
  have h4 : v.valueString f = w.valueString f := by simpa using h4
  refine ⟨utf8_inj h3, ?_, ?_⟩
  · intro i j hi hj
    obtain ⟨e1, g1⟩ := number_text (f := f) hi
    obtain ⟨e2, g2⟩ := number_text (f := f) hj
    exact int_inj g1 g2 (by rw [← e1, ← e2, h4])
  · rintro x y rfl rfl
    exact h4

/-- C138, when there is a text: the reference is a path with keys that can be printed. -/
theorem C138_prints (f : TcFmt) (e : Expr → Res Bytes) (a : ERoot) (p : ERef) (k : Option Ty) :
    (∃ s, fieldRefString f e a p k = .ok s) ↔ a.Prints e ∧ ∃ x, p = .seg x ∧ x ≠ .nil ∧ x.KeysPrint f := by
  have child : ∀ x : Seg, (∃ s, Seg.childString f x = .ok s) ↔ x.KeysPrint f := by
    intro x
    induction x with
    | nil => simp [Seg.childString, Seg.KeysPrint]
    | mapKey k c ih =>
      simp only [Seg.childString, Seg.KeysPrint, Res.bind_eq_ok, ← ih]
      constructor
      · rintro ⟨s, c, hc, k, hk, _⟩; exact ⟨⟨_, hk⟩, _, hc⟩
      · rintro ⟨⟨k, hk⟩, c, hc⟩; exact ⟨_, c, hc, k, hk, rfl⟩
    | structField i c ih =>
      simp only [Seg.childString, Seg.KeysPrint, Res.bind_eq_ok, ← ih]
      constructor
      · rintro ⟨s, c, hc, _⟩; exact ⟨_, hc⟩
      · rintro ⟨c, hc⟩; exact ⟨_, c, hc, rfl⟩
    | listElement i c ih =>
      simp only [Seg.childString, Seg.KeysPrint, Res.bind_eq_ok, ← ih]
      constructor
      · rintro ⟨s, c, hc, _⟩; exact ⟨_, hc⟩
      · rintro ⟨c, hc⟩; exact ⟨_, c, hc, rfl⟩
  have hroot : (∃ r, a.string e = .ok r) ↔ a.Prints e := by
    cases a with
    | expr x =>
      cases x <;> simp only [ERoot.string, ERoot.Prints, Res.bind_eq_ok, Res.ok.injEq, exists_eq']
      all_goals exact ⟨fun ⟨_, s, h, _⟩ => ⟨s, h⟩, fun ⟨s, h⟩ => ⟨_, s, h, rfl⟩⟩
    | _ => simp [ERoot.string, ERoot.Prints]
  constructor
  · rintro ⟨s, h⟩
    obtain ⟨r, x, t, hr, rfl, ht, _⟩ := parts h
    exact ⟨hroot.1 ⟨r, hr⟩, x, rfl, by rintro rfl; simp [Seg.string] at ht, (child x).1 ⟨_, (seg_child ht).1⟩⟩
  · rintro ⟨ha, x, rfl, hx, hk⟩
    obtain ⟨s, hs⟩ := (child x).2 hk
    have hs' : x.string f = .ok s := by
      cases x <;> simp_all [Seg.string, Seg.childString]
    obtain ⟨r, hr⟩ := hroot.2 ha
    exact ⟨_, by simp only [fieldRefString, hr, hs', Res.ok_bind]; rfl⟩

/-- ... a reference by a mask is read from a plan, but printing it panics. -/
theorem C138_negation_mask (reg : Reg) (base : Option (List Ty)) (f : TcFmt) (e : Expr → Res Bytes) (m : Nat) :
    ∃ r k, Expr.fromProto reg base (.selection .rootReference (.masked m)) = .ok (.fieldRef .rootReference r k) ∧
      fieldRefString f e .rootReference r k = .panic := by
  refine ⟨_, _, rfl, ?_⟩
  simp [fieldRefString, ERoot.string]

/-- C138 is false as stated: one key that looks like the end of a key and the beginning of another. -/
theorem C138_negation : ¬ C138_statement := by
  intro h
  let f : TcFmt := ⟨fun _ => [], fun _ => [], fun _ => [], fun _ _ => [], fun _ _ => [], fun _ _ => [],
    fun _ _ _ _ => [], fun _ => [], fun _ _ => [], fun _ => []⟩
  let t : Ty := .prim .string 2 0
  have := h f (fun _ => .err) .rootReference .rootReference
    (.mapKey (.prim (.string [97]) t) (.mapKey (.prim (.string [98]) t) .nil))
    (.mapKey (.prim (.string ([97, 41, 93, 46, 91] ++ utf8 t.string ++ [40, 98])) t) .nil) none none _ trivial trivial
    rfl (by simp [fieldRefString, ERoot.string, Seg.string, Seg.childString, Lit.string, Lit.getType, Lit.valueString,
      PVal.valueString])
  obtain ⟨_, h, _⟩ := this
  cases h with
  | key _ _ _ _ _ _ _ h => cases h

-- `.field(3).[0].[i32(7)]`: the text tells the path
example (f : TcFmt) (e : Expr → Res Bytes) (b : ERoot) (hb : b.Present) (hb' : b.Closed e) (q : Seg) (hq : q.KeysClosed f) (s : Bytes)
    (h1 : fieldRefString f e (.outer 2) (.seg (.structField 3 (.listElement (-1) .nil))) (some (.prim .i8 1 0)) = .ok s)
    (h2 : fieldRefString f e b (.seg q) none = .ok s) : False := by
  have := (C138_tells_partial (a := .outer 2) trivial hb trivial hb' (by rintro x ⟨⟩; trivial) (by rintro x ⟨⟩; exact hq) h1 h2).2.2
  simp at this

-- ... and there is one
example (f : TcFmt) (e : Expr → Res Bytes) : ∃ s,
    fieldRefString f e (.outer 2) (.seg (.structField 3 (.listElement (-1) .nil))) (some (.prim .i8 1 0)) = .ok s :=
  (C138_prints f e _ _ _).2 ⟨trivial, _, rfl, by simp, trivial⟩

-- an integer key has no brackets
example (f : TcFmt) : (Seg.mapKey (.prim (.int8 5) (.prim .i8 2 0)) (.structField 0 .nil)).KeysClosed f := by
  refine ⟨?_, trivial⟩
  intro s h
  simp only [Lit.string, Lit.getType, Res.ok_bind, Lit.valueString, PVal.valueString, Res.ok.injEq] at h
  subst h
  decide +kernel

example (f : TcFmt) (i j : Int64) (s : Bytes) (h1 : (Lit.prim (.int64 i) (.prim .i64 2 0)).string f = .ok s)
    (h2 : (Lit.prim (.int64 j) (.prim .i64 2 0)).string f = .ok s) : i.toInt = j.toInt :=
  (C138_keys h1 h2).2.1 _ _ rfl rfl

-- keys of different variations read the same
example (f : TcFmt) (e : Expr → Res Bytes) :
    fieldRefString f e .rootReference (.seg (.mapKey (.prim (.int8 5) (.prim .i8 2 0)) .nil)) none =
      fieldRefString f e .rootReference (.seg (.mapKey (.prim (.int8 5) (.prim .i8 2 9)) .nil)) none :=
  C138_same trivial trivial (.same _) (.key _ _ _ _ _ rfl rfl .done) rfl

end Verif
