import Verif.Spec.TestCase
import Verif.Lemmas.DayInterval
import Verif.Lemmas.LocalTypes
import Verif.Props.WithType
import Verif.Props.Literals
/-! # Lemmas about the reading of test files -/

namespace Verif

theorem atoiDigits_digits (s : Bytes) (acc n : Nat) (h : atoiDigits acc s = some n) : Digits s := by
  induction s generalizing acc with
  | nil => intro b hb; cases hb
  | cons b s ih =>
      unfold atoiDigits at h
      split at h
      · rename_i hb
        intro c hc
        rcases List.mem_cons.1 hc with rfl | hc
        · exact hb
        · exact ih _ h c hc
      · cases h

/-- the part of `atoi` after the sign -/
theorem atoiDigits_decimal {s : Bytes} (h : Digits s) : atoiDigits 0 s = some (decimal s) := by
  rw [atoiDigits_of s h 0]
  exact congrArg some (digitsNat_eq s)

theorem atoi_iff (s : Bytes) (i : Int) : atoi s = .ok i ↔ WritesInt s i ∧ IsInt64 i := by
  constructor
  · intro h
    unfold atoi at h
    split at h
    rename_i neg ds heq
    split at h
    · cases h
    rename_i hne
    split at h
    · cases h
    rename_i n hn
    have hd := atoiDigits_digits _ _ _ hn
    rw [atoiDigits_decimal hd] at hn
    cases hn
    have hi : i = (if neg = true then -(decimal ds : Int) else decimal ds) ∧ IsInt64 i := by
      generalize (if neg = true then -(decimal ds : Int) else (decimal ds : Int)) = v at h
      simp only at h
      split at h
      · cases h
      · cases h
        exact ⟨rfl, by unfold IsInt64; omega⟩
    obtain ⟨rfl, hr⟩ := hi
    refine ⟨⟨ds, ⟨hne, hd⟩, ?_⟩, hr⟩
    split at heq
    · cases heq; exact Or.inr ⟨rfl, rfl⟩
    · cases heq; exact Or.inl ⟨Or.inr rfl, rfl⟩
    · cases heq; exact Or.inl ⟨Or.inl rfl, rfl⟩
  · rintro ⟨⟨ds, hd, hs⟩, h1, h2⟩
    rcases hs with ⟨rfl | rfl, rfl⟩ | ⟨rfl, rfl⟩
    · rw [atoi_number hd, if_neg (by omega)]
    · unfold atoi
      simp only
      rw [if_neg hd.1, atoiDigits_decimal hd.2]
      simp only [Bool.false_eq_true, if_false]
      rw [if_neg (by omega)]
    · unfold atoi
      simp only
      rw [if_neg hd.1, atoiDigits_decimal hd.2]
      simp only [if_true]
      rw [if_neg (by omega)]

theorem atoi_ok_or_err (s : Bytes) : (∃ i, atoi s = .ok i) ∨ atoi s = .err := by
  cases h : atoi s with
  | ok i => exact Or.inl ⟨i, rfl⟩
  | err => exact Or.inr rfl
  | panic => exact absurd h (atoi_ne_panic s)

theorem WritesInt.unique {s : Bytes} {i j : Int} (h : WritesInt s i) (h' : WritesInt s j) : i = j := by
  obtain ⟨d, hd, hi⟩ := h
  obtain ⟨e, he, hj⟩ := h'
  have no : ∀ {c : UInt8} {t : Bytes}, IsNumber (c :: t) → c ≠ 43 ∧ c ≠ 45 := by
    intro c t hn
    have := hn.2 c (by simp)
    constructor <;> (rintro rfl; revert this; decide)
  rcases hi with ⟨rfl | rfl, rfl⟩ | ⟨rfl, rfl⟩ <;> rcases hj with ⟨hs | hs, rfl⟩ | ⟨hs, rfl⟩
  · rw [hs]
  · subst hs; exact absurd rfl (no hd).1
  · subst hs; exact absurd rfl (no hd).2
  · subst hs; exact absurd rfl (no he).1
  · cases hs; rfl
  · cases hs
  · subst hs; exact absurd rfl (no he).2
  · cases hs
  · cases hs; rfl

theorem mark_eq (q : Bool) : getNullability q = mark q := by cases q <;> rfl

theorem isNullable_mark (q : Bool) : (mark q == NullabilityNullable) = q := by cases q <;> rfl

theorem tcIntegerLiteral_means {s : Bytes} {p : Int32} (h : tcIntegerLiteral s = .ok p)
    (hs : ∀ i, WritesInt s i → IsInt32 i) : WritesInt s p.toInt := by
  unfold tcIntegerLiteral at h
  rw [Res.bind_eq_ok] at h
  obtain ⟨i, h1, h2⟩ := h
  obtain ⟨h3, -⟩ := (atoi_iff _ _).1 h1
  cases h2
  obtain ⟨h4, h5⟩ := hs i h3
  rwa [Int32.toInt_ofInt_of_le h4 (by omega)]

theorem tcIntegerLiteral_of {s : Bytes} {p : Int32} (h : WritesInt s p.toInt) : tcIntegerLiteral s = .ok p := by
  unfold tcIntegerLiteral
  have h1 := Int32.le_toInt p
  have h2 := Int32.toInt_lt p
  rw [(atoi_iff s p.toInt).2 ⟨h, by constructor <;> omega⟩, Res.ok_bind, Int32.ofInt_toInt]

theorem tcType_means {tr : TcType} {t : Ty} (h : tcType tr = .ok t) (hs : tr.Small) : tr.Means t := by
  induction tr generalizing t with
  | prim k q => cases h; simp only [TcType.Means, mark_eq]
  | decimal q ps =>
      cases ps with
      | none => cases h; simp only [TcType.Means, mark_eq]
      | some ps =>
          obtain ⟨p, s⟩ := ps
          simp only [tcType, Res.bind_eq_ok] at h
          obtain ⟨p', hp, s', hs', h⟩ := h
          cases h
          exact ⟨p', s', tcIntegerLiteral_means hp hs.1, tcIntegerLiteral_means hs' hs.2, by rw [mark_eq]⟩
  | prec k q p =>
      cases p with
      | none => cases k <;> simp only [tcType] at h <;> cases h; exact ⟨rfl, by rw [mark_eq]⟩
      | some p =>
          simp only [tcType, Res.bind_eq_ok] at h
          obtain ⟨p', hp, h⟩ := h
          cases h
          exact ⟨p', tcIntegerLiteral_means hp hs, by rw [mark_eq]⟩
  | fixed k q l =>
      simp only [tcType, Res.bind_eq_ok] at h
      obtain ⟨p', hp, h⟩ := h
      cases h
      exact ⟨p', tcIntegerLiteral_means hp hs, by rw [mark_eq]⟩
  | list q e ih =>
      simp only [tcType, Res.bind_eq_ok] at h
      obtain ⟨t', ht, h⟩ := h
      cases h
      exact ⟨t', ih ht hs, by rw [mark_eq]⟩
  | other => cases h

theorem tcType_of {tr : TcType} {t : Ty} (h : tr.Means t) : tcType tr = .ok t := by
  induction tr generalizing t with
  | prim k q => cases h; simp only [tcType, mark_eq]
  | decimal q ps =>
      cases ps with
      | none => cases h; simp only [tcType, mark_eq]
      | some ps =>
          obtain ⟨p, s⟩ := ps
          obtain ⟨p', s', hp, hs, rfl⟩ := h
          simp only [tcType, tcIntegerLiteral_of hp, tcIntegerLiteral_of hs, Res.ok_bind, mark_eq]
  | prec k q p =>
      cases p with
      | none => obtain ⟨rfl, rfl⟩ := h; simp only [tcType, mark_eq]
      | some p =>
          obtain ⟨p', hp, rfl⟩ := h
          simp only [tcType, tcIntegerLiteral_of hp, Res.ok_bind, mark_eq]
  | fixed k q l =>
      obtain ⟨p', hp, rfl⟩ := h
      simp only [tcType, tcIntegerLiteral_of hp, Res.ok_bind, mark_eq]
  | list q e ih =>
      obtain ⟨t', ht, rfl⟩ := h
      simp only [tcType, ih ht, Res.ok_bind, mark_eq]
  | other => exact h.elim

/-! ## Integers -/

theorem getIntLiteral_of {s : Bytes} {i : Int} {k : Prim} {q : Bool} (hs : WritesInt s i) (hk : k.Holds i) :
    ∃ l, getIntLiteral s (.prim k (mark q) 0) = .ok l ∧ l.getType = .ok (.prim k (mark q) 0) ∧
      l.integer = some i := by
  have hr : IsInt64 i := by
    cases k <;> simp only [Prim.Holds, IsInt32, IsInt64] at hk ⊢ <;> first | omega | exact hk.elim
  unfold getIntLiteral
  rw [(atoi_iff s i).2 ⟨hs, hr⟩, Res.ok_bind]
  cases k <;> simp only [Prim.Holds] at hk
  · refine ⟨_, rfl, ?_, ?_⟩
    · simp [Lit.getType, Ty.isNullable, Ty.nullability, isNullable_mark, mark_eq]
    · exact congrArg some (Int8.toInt_ofInt_of_le (by omega) (by omega))
  · refine ⟨_, rfl, ?_, ?_⟩
    · simp [Lit.getType, Ty.isNullable, Ty.nullability, isNullable_mark, mark_eq]
    · exact congrArg some (Int16.toInt_ofInt_of_le (by omega) (by omega))
  · refine ⟨_, rfl, ?_, ?_⟩
    · simp [Lit.getType, Ty.isNullable, Ty.nullability, isNullable_mark, mark_eq]
    · obtain ⟨h1, h2⟩ := hk
      exact congrArg some (Int32.toInt_ofInt_of_le (by omega) (by omega))
  · refine ⟨_, rfl, ?_, ?_⟩
    · simp [Lit.getType, Ty.isNullable, Ty.nullability, isNullable_mark, mark_eq]
    · obtain ⟨h1, h2⟩ := hk
      exact congrArg some (Int64.toInt_ofInt_of_le (by omega) (by omega))

/-- What an accepted integer is, in range or not. -/
theorem getIntLiteral_ok {s : Bytes} {k : Prim} {n : Nullability} {l : Lit}
    (h : getIntLiteral s (.prim k n 0) = .ok l) :
    ∃ i j, WritesInt s i ∧ IsInt64 i ∧ l.integer = some j ∧ k.span ∣ j - i ∧ k.Holds j ∧
      l.getType = .ok (.prim k (getNullability (n == NullabilityNullable)) 0) := by
  unfold getIntLiteral at h
  rw [Res.bind_eq_ok] at h
  obtain ⟨i, h1, h2⟩ := h
  obtain ⟨hs, hr⟩ := (atoi_iff _ _).1 h1
  cases k <;> simp only at h2 <;> cases h2
  · refine ⟨i, _, hs, hr, rfl, ?_, ?_, rfl⟩
    · rw [Int8.toInt_ofInt]; exact Int.dvd_bmod_sub_self
    · have h1 := Int8.le_toInt (Int8.ofInt i); have h2 := Int8.toInt_lt (Int8.ofInt i)
      exact ⟨by omega, by omega⟩
  · refine ⟨i, _, hs, hr, rfl, ?_, ?_, rfl⟩
    · rw [Int16.toInt_ofInt]; exact Int.dvd_bmod_sub_self
    · have h1 := Int16.le_toInt (Int16.ofInt i); have h2 := Int16.toInt_lt (Int16.ofInt i)
      exact ⟨by omega, by omega⟩
  · refine ⟨i, _, hs, hr, rfl, ?_, ?_, rfl⟩
    · rw [Int32.toInt_ofInt]; exact Int.dvd_bmod_sub_self
    · have h1 := Int32.le_toInt (Int32.ofInt i); have h2 := Int32.toInt_lt (Int32.ofInt i)
      exact ⟨by omega, by omega⟩
  · refine ⟨i, _, hs, hr, rfl, ?_, ?_, rfl⟩
    · rw [Int64.toInt_ofInt]; exact Int.dvd_bmod_sub_self
    · have h1 := Int64.le_toInt (Int64.ofInt i); have h2 := Int64.toInt_lt (Int64.ofInt i)
      exact ⟨by omega, by omega⟩

/-! ## Types of literals -/

theorem tcType_ofLiteral {tr : TcType} {t : Ty} (h : tcType tr = .ok t) : t.ofLiteral = t := by
  cases tr with
  | prim => cases h; rfl
  | decimal q ps =>
      cases ps with
      | none => cases h; cases q <;> rfl
      | some ps =>
          simp only [tcType, Res.bind_eq_ok] at h
          obtain ⟨p', hp, s', hs', h⟩ := h
          cases h; cases q <;> rfl
  | prec k q p =>
      cases p with
      | none => cases k <;> simp only [tcType] at h <;> cases h; rfl
      | some p =>
          simp only [tcType, Res.bind_eq_ok] at h
          obtain ⟨p', hp, h⟩ := h
          cases h; rfl
  | fixed k q l =>
      simp only [tcType, Res.bind_eq_ok] at h
      obtain ⟨p', hp, h⟩ := h
      cases h; rfl
  | list q e =>
      simp only [tcType, Res.bind_eq_ok] at h
      obtain ⟨t', ht, h⟩ := h
      cases h; rfl
  | other => cases h

theorem tcType_nullable {tr : TcType} {t : Ty} (h : tcType tr = .ok t) (hn : t.isNullable = true) :
    t.withNullability NullabilityNullable = t := by
  have hn' : t.nullability = NullabilityNullable := by simpa [Ty.isNullable] using hn
  cases tr with
  | prim => cases h; simp only [Ty.nullability] at hn'; simp only [Ty.withNullability, hn']
  | decimal q ps =>
      cases ps with
      | none => cases h; simp only [Ty.nullability] at hn'; simp only [Ty.withNullability, hn']
      | some ps =>
          simp only [tcType, Res.bind_eq_ok] at h
          obtain ⟨p', hp, s', hs', h⟩ := h
          cases h; simp only [Ty.nullability] at hn'; simp only [Ty.withNullability, hn']
  | prec k q p =>
      cases p with
      | none =>
          cases k <;> simp only [tcType] at h <;> cases h
          simp only [Ty.nullability] at hn'; simp only [Ty.withNullability, hn']
      | some p =>
          simp only [tcType, Res.bind_eq_ok] at h
          obtain ⟨p', hp, h⟩ := h
          cases h; simp only [Ty.nullability] at hn'; simp only [Ty.withNullability, hn']
  | fixed k q l =>
      simp only [tcType, Res.bind_eq_ok] at h
      obtain ⟨p', hp, h⟩ := h
      cases h; simp only [Ty.nullability] at hn'; simp only [Ty.withNullability, hn']
  | list q e =>
      simp only [tcType, Res.bind_eq_ok] at h
      obtain ⟨t', ht, h⟩ := h
      cases h; simp only [Ty.nullability] at hn'; simp only [Ty.withNullability, hn']
  | other => cases h

/-- not a null literal -/
def Lit.NotNull (l : Lit) : Prop := ∀ t, l ≠ .null t

theorem newLiteral_notNull {a : LitArg} {q : Bool} {l : Lit} (h : newLiteral a q = .ok l) : l.NotNull := by
  intro t ht
  subst ht
  unfold newLiteral at h
  simp only at h
  split at h <;> try (cases h; done)
  · unfold newPrimLiteral at h; split at h <;> cases h
  · simp only [Res.bind_eq_ok] at h; obtain ⟨_, -, h⟩ := h; cases h
  · simp only [Res.bind_eq_ok] at h; obtain ⟨_, -, _, -, h⟩ := h; cases h
  · simp only [Res.bind_eq_ok] at h; obtain ⟨_, -, h⟩ := h; cases h
  · split at h <;> cases h
  · simp only [Res.bind_eq_ok] at h; obtain ⟨_, -, h⟩ := h; cases h

theorem newList_notNull {vs : List Lit} {q : Bool} {l : Lit} (h : newList vs q = .ok l) : l.NotNull := by
  obtain ⟨t, ts, -, -, rfl⟩ := (C11_newList _ _ _).1 h
  intro t ht; cases ht

/-- What is known of an argument before `updateType`. -/
structure CaseLit.Ready (c : CaseLit) : Prop where
  ofLiteral : c.type.ofLiteral = c.type
  typed : ∀ l, c.value = .lit l → l.getType = .ok c.type ∨ (c.type.getParameters ≠ [] ∧ l.NotNull)

theorem updateType_ok {c c' : CaseLit} (h : c.updateType = .ok c') (hr : c.Ready) :
    c'.type = c.type ∧ ∀ l, c'.value = .lit l → l.getType = .ok c'.type := by
  obtain ⟨t, v⟩ := c
  unfold CaseLit.updateType at h
  simp only at h
  split at h
  · rename_i hp
    cases h
    refine ⟨rfl, fun l hl => ?_⟩
    rcases hr.typed l hl with h1 | ⟨h1, -⟩
    · exact h1
    · exact absurd (List.length_eq_zero_iff.1 hp) h1
  · split at h
    · rename_i t'
      cases h
      refine ⟨rfl, fun l hl => ?_⟩
      rcases hr.typed l hl with h1 | ⟨-, h1⟩
      · exact h1
      · cases hl; exact absurd rfl (h1 t')
    · rename_i l hl
      rw [Res.bind_eq_ok] at h
      obtain ⟨l', h1, h2⟩ := h
      cases h2
      refine ⟨rfl, fun l'' hl'' => ?_⟩
      cases hl''
      have := C98_type_partial _ _ _ h1
      rw [hr.ofLiteral] at this
      exact this
    · cases h

/-! ## Arguments -/

mutual
theorem marks_null {ctx : Ty} : ∀ {e : TcElem}, TcElem.marks ctx e = true → e.HasNull
  | .lit l, h => by
      cases l <;> simp only [TcElem.marks] at h <;> first | exact rfl | cases h
  | .list es, h => by
      unfold TcElem.marks at h
      unfold TcElem.HasNull
      split at h
      · exact marksAny_null h
      · exact marksAny_null h
theorem marksAny_null {ctx : Ty} : ∀ {es : List TcElem}, TcElem.marksAny ctx es = true → TcElem.SomeNull es
  | [], h => by simp [TcElem.marksAny] at h
  | e :: es, h => by
      simp only [TcElem.marksAny, Bool.or_eq_true] at h
      rcases h with h | h
      · exact Or.inl (marks_null h)
      · exact Or.inr (marksAny_null h)
end

/-- intervals, lists of them .. -/
def Ty.intervals : Ty → Prop
  | .prec .intervalDay .. => True
  | .list _ _ t => t.intervals
  | _ => False

mutual
theorem marks_intervals {ctx : Ty} : ∀ {e : TcElem}, TcElem.marks ctx e = true → ctx.intervals
  | .lit l, h => by
      cases l <;> simp only [TcElem.marks] at h <;> try cases h
      split at h
      · simp only [Ty.intervals]
      · cases h
  | .list es, h => by
      unfold TcElem.marks at h
      split at h
      · unfold Ty.intervals; exact marksAny_intervals h
      · exact marksAny_intervals h
theorem marksAny_intervals {ctx : Ty} : ∀ {es : List TcElem}, TcElem.marksAny ctx es = true → ctx.intervals
  | [], h => by simp [TcElem.marksAny] at h
  | e :: es, h => by
      simp only [TcElem.marksAny, Bool.or_eq_true] at h
      rcases h with h | h
      · exact marks_intervals h
      · exact marksAny_intervals h
end

theorem tcType_intervals {tr : TcType} {t : Ty} (h : tcType tr = .ok t) (ht : t.intervals) : tr.OfIntervals := by
  induction tr generalizing t with
  | prim => cases h; exact ht.elim
  | decimal q ps =>
      cases ps with
      | none => cases h; exact ht.elim
      | some ps =>
          simp only [tcType, Res.bind_eq_ok] at h
          obtain ⟨p', hp, s', hs', h⟩ := h
          cases h; exact ht.elim
  | prec k q p =>
      cases k
      · trivial
      all_goals
        cases p with
        | none => cases h
        | some p =>
            simp only [tcType, Res.bind_eq_ok] at h
            obtain ⟨p', hp, h⟩ := h
            cases h; exact ht.elim
  | fixed k q l =>
      simp only [tcType, Res.bind_eq_ok] at h
      obtain ⟨p', hp, h⟩ := h
      cases h; exact ht.elim
  | list q e ih =>
      simp only [tcType, Res.bind_eq_ok] at h
      obtain ⟨t', ht', h⟩ := h
      cases h; exact ih ht' ht
  | other => cases h

theorem getFloatLiteral_ok {x : TcExt} {s : Bytes} {k : Prim} {q : Bool} {l : Lit}
    (h : getFloatLiteral x s (.prim k (mark q) 0) = .ok l) : l.getType = .ok (.prim k (mark q) 0) := by
  unfold getFloatLiteral at h
  rw [Res.bind_eq_ok] at h
  obtain ⟨v, -, h⟩ := h
  cases k <;> simp only at h <;> cases h <;>
    simp [Lit.getType, Ty.isNullable, Ty.nullability, isNullable_mark, mark_eq]

theorem newDecimalFromString_notNull {x : TcExt} {s : Bytes} {q : Bool} {l : Lit}
    (h : newDecimalFromString x s q = .ok l) : l.NotNull := by
  unfold newDecimalFromString at h
  simp only [Res.bind_eq_ok] at h
  obtain ⟨d, -, ⟨b, p, s'⟩, -, h⟩ := h
  exact newLiteral_notNull h

/-- Every accepted argument is of the type written behind it, up to `updateType`. -/
theorem visitArgument_ready {x : TcExt} {a : TcArg} {c : CaseLit} (h : visitArgument x a = .ok c) :
    c.Ready ∧ ∀ tr, a.declared = some tr → ¬ a.NullInterval → tcType tr = .ok c.type := by
  cases a with
  | null t =>
      simp only [visitArgument, Res.bind_eq_ok] at h
      obtain ⟨t', ht, h⟩ := h
      split at h
      · cases h
      · rename_i hn
        cases h
        have hn' : t'.isNullable = true := by simpa using hn
        refine ⟨⟨tcType_ofLiteral ht, ?_⟩, ?_⟩
        · intro l hl; cases hl
          refine Or.inl ?_
          simp only [newNullLiteral, Lit.getType, tcType_nullable ht hn']
        · intro tr htr _; cases htr; exact ht
  | int k q s =>
      simp only [visitArgument, tcType, Res.ok_bind, Res.bind_eq_ok, mark_eq] at h
      obtain ⟨l, hl, h⟩ := h
      cases h
      obtain ⟨i, j, -, -, -, -, -, ht⟩ := getIntLiteral_ok hl
      rw [isNullable_mark, mark_eq] at ht
      refine ⟨⟨rfl, fun l' hl' => ?_⟩, fun tr htr _ => ?_⟩
      · cases hl'; exact Or.inl ht
      · cases htr; simp only [tcType, mark_eq]
  | float k q s =>
      simp only [visitArgument, tcType, Res.ok_bind, Res.bind_eq_ok, mark_eq] at h
      obtain ⟨l, hl, t, ht, h⟩ := h
      rw [getFloatLiteral_ok hl] at ht
      cases ht
      cases h
      refine ⟨⟨rfl, fun l' hl' => ?_⟩, fun tr htr _ => ?_⟩
      · cases hl'; exact Or.inl (getFloatLiteral_ok hl)
      · cases htr; simp only [tcType, mark_eq]
  | bool q b =>
      simp only [visitArgument, Res.bind_eq_ok] at h
      obtain ⟨l, hl, h⟩ := h
      cases h; cases hl
      refine ⟨⟨rfl, fun l' hl' => ?_⟩, fun tr htr _ => ?_⟩
      · cases hl'; exact Or.inl rfl
      · cases htr; rfl
  | string q s =>
      simp only [visitArgument, Res.bind_eq_ok] at h
      obtain ⟨l, hl, h⟩ := h
      cases h; cases hl
      refine ⟨⟨rfl, fun l' hl' => ?_⟩, fun tr htr _ => ?_⟩
      · cases hl'; exact Or.inl rfl
      · cases htr; rfl
  | decimal q ps s =>
      simp only [visitArgument, Res.bind_eq_ok] at h
      obtain ⟨t, ht, l, hl, h⟩ := h
      cases h
      refine ⟨⟨tcType_ofLiteral ht, fun l' hl' => ?_⟩, fun tr htr _ => ?_⟩
      · cases hl'
        refine Or.inr ⟨?_, newDecimalFromString_notNull hl⟩
        cases ps with
        | none => cases ht; simp [Ty.getParameters]
        | some ps =>
            simp only [tcType, Res.bind_eq_ok] at ht
            obtain ⟨p', hp, s', hs', ht⟩ := ht
            cases ht; simp [Ty.getParameters]
      · cases htr; exact ht
  | date q s =>
      simp only [visitArgument, newDateFromString, Res.bind_eq_ok] at h
      obtain ⟨l, ⟨tm, -, hl⟩, h⟩ := h
      cases h; cases hl
      refine ⟨⟨rfl, fun l' hl' => ?_⟩, fun tr htr _ => ?_⟩
      · cases hl'; exact Or.inl rfl
      · cases htr; rfl
  | time q s =>
      simp only [visitArgument, newTimeFromString, Res.bind_eq_ok] at h
      obtain ⟨l, ⟨tm, -, m, -, hl⟩, h⟩ := h
      cases h; cases hl
      refine ⟨⟨rfl, fun l' hl' => ?_⟩, fun tr htr _ => ?_⟩
      · cases hl'; exact Or.inl rfl
      · cases htr; rfl
  | timestamp q s =>
      simp only [visitArgument, newTimestampFromString, Res.bind_eq_ok] at h
      obtain ⟨l, ⟨tm, -, hl⟩, h⟩ := h
      cases h; cases hl
      refine ⟨⟨rfl, fun l' hl' => ?_⟩, fun tr htr _ => ?_⟩
      · cases hl'; exact Or.inl rfl
      · cases htr; rfl
  | timestampTz q s =>
      simp only [visitArgument, newTimestampTzFromString, Res.bind_eq_ok] at h
      obtain ⟨l, ⟨tm, -, hl⟩, h⟩ := h
      cases h; cases hl
      refine ⟨⟨rfl, fun l' hl' => ?_⟩, fun tr htr _ => ?_⟩
      · cases hl'; exact Or.inl rfl
      · cases htr; rfl
  | intervalYear q s =>
      simp only [visitArgument, newIntervalYearFromString, Res.bind_eq_ok] at h
      obtain ⟨l, ⟨⟨y, m⟩, -, hl⟩, h⟩ := h
      cases h; cases hl
      refine ⟨⟨rfl, fun l' hl' => ?_⟩, fun tr htr _ => ?_⟩
      · cases hl'; exact Or.inl rfl
      · cases htr; rfl
  | intervalDay q p s =>
      simp only [visitArgument, newIntervalDayFromString, Res.bind_eq_ok] at h
      obtain ⟨t, ht, l, ⟨d, -, hl⟩, h⟩ := h
      cases h
      refine ⟨⟨tcType_ofLiteral ht, fun l' hl' => ?_⟩, fun tr htr _ => ?_⟩
      · cases hl'
        refine Or.inr ⟨?_, newLiteral_notNull hl⟩
        cases p with
        | none => cases ht; simp [Ty.getParameters]
        | some p =>
            simp only [tcType, Res.bind_eq_ok] at ht
            obtain ⟨p', hp, ht⟩ := ht
            cases ht; simp [Ty.getParameters]
      · cases htr; exact ht
  | fixed k q len s =>
      simp only [visitArgument, Res.bind_eq_ok] at h
      obtain ⟨t, ht, h⟩ := h
      have hp : t.getParameters ≠ [] := by
        have ht' := ht
        simp only [tcType, Res.bind_eq_ok] at ht'
        obtain ⟨p', hp, ht'⟩ := ht'
        cases ht'; simp [Ty.getParameters]
      have key : ∃ l, c = ⟨t, .lit l⟩ ∧ l.NotNull := by
        cases k <;> simp only [newVarCharLiteral, Res.bind_eq_ok] at h <;>
          obtain ⟨l, hl, h⟩ := h <;> cases h <;> exact ⟨_, rfl, newLiteral_notNull hl⟩
      obtain ⟨l, rfl, hl⟩ := key
      refine ⟨⟨tcType_ofLiteral ht, fun l' hl' => ?_⟩, fun tr htr _ => ?_⟩
      · cases hl'; exact Or.inr ⟨hp, hl⟩
      · cases htr; exact ht
  | prec k q p s =>
      simp only [visitArgument, Res.bind_eq_ok] at h
      obtain ⟨t, ht, h⟩ := h
      split at h
      · rename_i p'
        simp only [newPrecFromString, Res.bind_eq_ok] at h
        obtain ⟨l, ⟨tm, -, hl⟩, h⟩ := h
        cases h
        split at hl
        · cases hl
        rw [Res.bind_eq_ok] at hl
        obtain ⟨v, -, hl⟩ := hl
        refine ⟨⟨tcType_ofLiteral ht, fun l' hl' => ?_⟩, fun tr htr _ => ?_⟩
        · cases hl'; exact Or.inr ⟨by simp [Ty.getParameters], newLiteral_notNull hl⟩
        · cases htr; exact ht
      · cases h
  | list q e es =>
      simp only [visitArgument, visitListArg, Res.bind_eq_ok] at h
      obtain ⟨t, ht, vs, hv, h⟩ := h
      generalize ht' : (if TcElem.marksAny t es = true then t.markInterval else t) = t' at h hv
      have hd : ∀ tr, (TcArg.list q e es).declared = some tr → ¬ (TcArg.list q e es).NullInterval →
          tcType tr = .ok (.list (getNullability q) 0 t') := by
        intro tr htr hn
        cases htr
        have hm : ¬ TcElem.marksAny t es = true := fun hm =>
          hn ⟨tcType_intervals ht (marksAny_intervals hm), marksAny_null hm⟩
        rw [if_neg hm] at ht'
        subst ht'
        simp only [tcType, ht, Res.ok_bind]
      split at h
      · cases h
        refine ⟨⟨rfl, fun l' hl' => ?_⟩, hd⟩
        cases hl'; exact Or.inr ⟨by simp [Ty.getParameters], fun t ht => by cases ht⟩
      · rw [Res.bind_eq_ok] at h
        obtain ⟨l, hl, h⟩ := h
        cases h
        refine ⟨⟨rfl, fun l' hl' => ?_⟩, hd⟩
        cases hl'; exact Or.inr ⟨by simp [Ty.getParameters], newList_notNull hl⟩
  | enum n =>
      cases h
      refine ⟨⟨rfl, fun l' hl' => ?_⟩, fun tr htr _ => ?_⟩
      · cases hl'
      · cases htr
  | unsupported => cases h

/-! ## Lists of integers -/

/-- the type of a list of lists .. of primitive values -/
def Ty.Rows : Ty → Prop
  | .prim _ n v => (∃ q, n = mark q) ∧ v = 0
  | .list n v t => n = 2 ∧ v = 0 ∧ t.Rows
  | _ => False

theorem rows_planType : ∀ {t : Ty}, t.Rows → t.PlanType
  | .prim .., _ => by simp [Ty.PlanType]
  | .list n v t, h => by
      unfold Ty.PlanType
      exact rows_planType h.2.2

theorem rows_not_intervals : ∀ {t : Ty}, t.Rows → ¬ t.intervals
  | .prim .., _ => id
  | .list n v t, h => rows_not_intervals (t := t) h.2.2

theorem is_getType {t : Ty} {e : TcElem} {l : Lit} (h : TcElem.Is t e l) : l.getType = .ok t := by
  cases e with
  | lit a =>
      cases a <;> unfold TcElem.Is at h <;> first | exact h.elim | exact h.1
  | list es =>
      cases l <;> unfold TcElem.Is at h <;> first | exact h.elim | skip
      obtain ⟨rfl, -⟩ := h
      rfl

theorem areAll_length : ∀ {t : Ty} {es : List TcElem} {vs : List Lit}, TcElem.AreAll t es vs →
    es.length = vs.length
  | _, [], [], _ => rfl
  | _, [], _ :: _, h => by unfold TcElem.AreAll at h; exact h.elim
  | _, _ :: _, [], h => by unfold TcElem.AreAll at h; exact h.elim
  | _, e :: es, v :: vs, h => by
      unfold TcElem.AreAll at h
      simp [areAll_length h.2]

theorem areAll_types : ∀ {t : Ty} {es : List TcElem} {vs : List Lit}, TcElem.AreAll t es vs →
    vs.map Lit.getType = (List.replicate vs.length t).map Res.ok
  | _, [], [], _ => rfl
  | _, [], _ :: _, h => by unfold TcElem.AreAll at h; exact h.elim
  | _, _ :: _, [], h => by unfold TcElem.AreAll at h; exact h.elim
  | _, e :: es, v :: vs, h => by
      unfold TcElem.AreAll at h
      simp only [List.map_cons, List.length_cons, List.replicate_succ, is_getType h.1, areAll_types h.2]

theorem newList_same {t : Ty} (ht : t.PlanType) {vs : List Lit} (hne : vs ≠ []) {q : Bool}
    (h : vs.map Lit.getType = (List.replicate vs.length t).map Res.ok) :
    newList vs q = .ok (.list vs (.list (mark q) 0 t)) := by
  rw [C11_newList]
  cases vs with
  | nil => exact absurd rfl hne
  | cons v vs =>
      refine ⟨t, List.replicate vs.length t, by simpa [List.replicate_succ] using h, ?_, by simp [mark]⟩
      intro u hu
      rw [List.eq_of_mem_replicate hu]
      exact (equals_true_iff ht).2 rfl

mutual
theorem visitElem_nested (x : TcExt) : ∀ (e : TcElem) (t : Ty), t.Rows → TcElem.Nested t e →
    ∃ l, visitElem x t e = .ok (some l) ∧ TcElem.Is t e l
  | .lit a, t, ht, h => by
      cases t <;> cases a <;> unfold TcElem.Nested at h <;> try exact h.elim
      rename_i k n v s
      obtain ⟨⟨q, rfl⟩, rfl⟩ := ht
      obtain ⟨i, hs, hk⟩ := h
      obtain ⟨l, h1, h2, h3⟩ := getIntLiteral_of (q := q) hs hk
      refine ⟨l, ?_, by unfold TcElem.Is; exact ⟨h2, i, hs, h3⟩⟩
      unfold visitElem
      cases k <;> simp only [Prim.Holds] at hk <;>
        simp only [visitLiteral, literalFromString, h1, Res.ok_bind]
  | .list es, t, ht, h => by
      cases t <;> unfold TcElem.Nested at h <;> try exact h.elim
      rename_i n v t
      obtain ⟨rfl, rfl, ht⟩ := ht
      obtain ⟨hne, hn⟩ := h
      obtain ⟨vs, h1, h2⟩ := visitElems_nested x es t ht hn
      have hl := areAll_length h2
      have hvs : vs ≠ [] := by
        rintro rfl
        exact hne (List.length_eq_zero_iff.1 hl)
      refine ⟨.list vs (.list 2 0 t), ?_, ?_⟩
      · unfold visitElem
        simp only [ctxElem, h1, Res.ok_bind]
        rw [if_neg (by simpa using hvs), newList_same (rows_planType ht) hvs (areAll_types h2)]
        rfl
      · unfold TcElem.Is
        exact ⟨rfl, 2, 0, t, rfl, h2⟩
theorem visitElems_nested (x : TcExt) : ∀ (es : List TcElem) (t : Ty), t.Rows → TcElem.NestedAll t es →
    ∃ vs, visitElems x t es = .ok vs ∧ TcElem.AreAll t es vs
  | [], t, _, _ => ⟨[], by unfold visitElems; rfl, by unfold TcElem.AreAll; trivial⟩
  | e :: es, t, ht, h => by
      unfold TcElem.NestedAll at h
      obtain ⟨l, h1, h2⟩ := visitElem_nested x e t ht h.1
      obtain ⟨vs, h3, h4⟩ := visitElems_nested x es t ht h.2
      refine ⟨l :: vs, ?_, by unfold TcElem.AreAll; exact ⟨h2, h4⟩⟩
      unfold visitElems
      simp only [h1, h3, Res.ok_bind]
end

/-! ## Lists of numbers and strings -/

theorem literalFromString_typed {x : TcExt} {s : Bytes} {tr : TcType} {t : Ty} {r : Option Lit}
    (ht : tcType tr = .ok t) (hr : tr.Readable) (h : literalFromString x s t = .ok r) :
    ∃ l, r = some l ∧ l.getType = .ok t := by
  cases tr with
  | prim k q =>
      cases ht
      rw [mark_eq] at h ⊢
      rcases hr with rfl | rfl | rfl | rfl | rfl | rfl | rfl | rfl <;>
        simp only [literalFromString, Res.bind_eq_ok] at h <;> obtain ⟨l, hl, h⟩ := h <;> cases h <;>
        refine ⟨l, rfl, ?_⟩
      iterate 4
        obtain ⟨i, j, -, -, -, -, -, ht⟩ := getIntLiteral_ok hl
        rw [isNullable_mark, mark_eq] at ht
        exact ht
      · exact getFloatLiteral_ok hl
      · exact getFloatLiteral_ok hl
      · cases hl; simp [Lit.getType, Ty.isNullable, Ty.nullability, isNullable_mark, mark_eq]
      · cases hl; simp [Lit.getType, Ty.isNullable, Ty.nullability, isNullable_mark, mark_eq]
  | decimal q ps =>
      have hd : ∃ n v a b, t = .decimal n v a b := by
        cases ps with
        | none => cases ht; exact ⟨_, _, _, _, rfl⟩
        | some ps =>
            simp only [tcType, Res.bind_eq_ok] at ht
            obtain ⟨p', hp, s', hs', ht⟩ := ht
            cases ht; exact ⟨_, _, _, _, rfl⟩
      obtain ⟨n, v, a, b, rfl⟩ := hd
      simp only [literalFromString, Res.bind_eq_ok] at h
      obtain ⟨l0, -, l, hl, h⟩ := h
      cases h
      have := C98_type_partial _ _ _ hl
      rw [tcType_ofLiteral ht] at this
      exact ⟨l, rfl, this⟩
  | fixed k q len =>
      have hd : ∃ n v a, t = .fixed k n v a := by
        simp only [tcType, Res.bind_eq_ok] at ht
        obtain ⟨p', hp, ht⟩ := ht
        cases ht; exact ⟨_, _, _, rfl⟩
      obtain ⟨n, v, a, rfl⟩ := hd
      cases k <;> simp only [literalFromString, Res.bind_eq_ok] at h <;> obtain ⟨l0, -, l, hl, h⟩ := h <;>
        cases h <;> exact ⟨l, rfl, C98_type_partial _ _ _ hl⟩
  | prec => exact hr.elim
  | list => exact hr.elim
  | other => exact hr.elim

theorem visitElems_words {x : TcExt} {tr : TcType} {t : Ty} (ht : tcType tr = .ok t) (hr : tr.Readable) :
    ∀ {es : List TcElem} {vs : List Lit}, (∀ e ∈ es, e.IsWord) → visitElems x t es = .ok vs →
      vs.length = es.length ∧ ∀ v ∈ vs, v.getType = .ok t
  | [], vs, _, h => by
      unfold visitElems at h; cases h; simp
  | e :: es, vs, hw, h => by
      unfold visitElems at h
      simp only [Res.bind_eq_ok] at h
      obtain ⟨r, h1, ls, h2, h⟩ := h
      have h3 : ∃ l, r = some l ∧ l.getType = .ok t := by
        have he := hw e (by simp)
        cases e with
        | list => exact he.elim
        | lit a =>
            unfold visitElem at h1
            cases a <;> try exact he.elim
            · exact literalFromString_typed ht hr h1
            · simp only [visitLiteral, Res.bind_eq_ok] at h1
              obtain ⟨r', h4, h1⟩ := h1
              obtain ⟨l, rfl, hl⟩ := literalFromString_typed ht hr h4
              cases h1
              exact ⟨l, rfl, hl⟩
      obtain ⟨l, rfl, hl⟩ := h3
      cases h
      obtain ⟨h4, h5⟩ := visitElems_words ht hr (fun e he => hw e (by simp [he])) h2
      refine ⟨by simp [h4], fun v hv => ?_⟩
      rcases List.mem_cons.1 hv with rfl | hv
      · exact hl
      · exact h5 v hv

/-! ## Strings -/

theorem dropWhile_quote {s : Bytes} (h : ∀ b, s.head? = some b → b ≠ 39) :
    s.dropWhile (· == 39) = s := by
  cases s with
  | nil => rfl
  | cons b s =>
      rw [List.dropWhile_cons_of_neg]
      simpa using h b rfl

/-- Quotes around a text that does not begin or end with one are taken off. -/
theorem rawString_token (s : Bytes) (h1 : ∀ b, s.head? = some b → b ≠ 39)
    (h2 : ∀ b, s.getLast? = some b → b ≠ 39) : rawString (39 :: s ++ [39]) = s := by
  unfold rawString
  cases s with
  | nil => rfl
  | cons b s =>
      have hb := h1 b rfl
      rw [List.cons_append, List.dropWhile_cons_of_pos (by rfl),
        dropWhile_quote (s := b :: s ++ [39]) (by simpa using hb), List.reverse_append]
      rw [show ([39] : Bytes).reverse ++ (b :: s).reverse = 39 :: (b :: s).reverse from rfl,
        List.dropWhile_cons_of_pos (by rfl), dropWhile_quote, List.reverse_reverse]
      rw [List.head?_reverse]
      exact h2

theorem quoted_plain (s : Bytes) (h : (39 : UInt8) ∉ s) : quoted s = 39 :: s ++ [39] := by
  unfold quoted
  congr 2
  induction s with
  | nil => rfl
  | cons b s ih =>
      rw [List.flatMap_cons, if_neg (by rintro rfl; exact h (by simp)), ih (fun hb => h (by simp [hb]))]
      rfl

end Verif
