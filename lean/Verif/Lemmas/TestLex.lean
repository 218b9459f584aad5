import Verif.Model.TestPrint
import Verif.Lemmas.TestCase
import Verif.Lemmas.DayIntervalText
import Verif.Lemmas.LocalTypes
import Mathlib.Tactic.IntervalCases
/-!
# Lemmas about tokens of function test files
-/

namespace Verif

/-! ## Regular expressions -/

/-- the texts matched by an expression -/
inductive Bx.Lang : Bx → Bytes → Prop where
  | eps : Lang .eps []
  | set : p c = true → Lang (.set p) [c]
  | altL : Lang a s → Lang (.alt a b) s
  | altR : Lang b s → Lang (.alt a b) s
  | seq : Lang a s → Lang b t → Lang (.seq a b) (s ++ t)
  | starNil : Lang (.star a) []
  | starCons : Lang a s → Lang (.star a) t → Lang (.star a) (s ++ t)

namespace Bx

theorem nullable_iff (a : Bx) : a.nullable = true ↔ a.Lang [] := by
  induction a with
  | none => simp [nullable]; intro h; cases h
  | eps => simp [nullable]; exact .eps
  | set p => simp [nullable]; intro h; cases h
  | alt a b iha ihb =>
    simp only [nullable, Bool.or_eq_true, iha, ihb]
    constructor
    · rintro (h | h)
      · exact .altL h
      · exact .altR h
    · intro h
      cases h with
      | altL h => exact .inl h
      | altR h => exact .inr h
  | seq a b iha ihb =>
    simp only [nullable, Bool.and_eq_true, iha, ihb]
    constructor
    · rintro ⟨h, h'⟩
      exact .seq h h'
    · intro h
      generalize e : ([] : Bytes) = l at h
      cases h with
      | seq h h' =>
        obtain ⟨rfl, rfl⟩ := List.append_eq_nil_iff.1 e.symm
        exact ⟨h, h'⟩
  | star a _ => simp [nullable]; exact .starNil

theorem star_cons {a : Bx} {l : Bytes} (h : (Bx.star a).Lang l) :
    ∀ c cs, l = c :: cs → ∃ s t, cs = s ++ t ∧ a.Lang (c :: s) ∧ (Bx.star a).Lang t := by
  generalize e : Bx.star a = r at h
  induction h with
  | starNil => intro c cs h; cases h
  | @starCons a' s t h1 h2 _ ih =>
    cases e
    intro c cs hl
    cases s with
    | nil => exact ih rfl c cs (by simpa using hl)
    | cons d s =>
      simp only [List.cons_append, List.cons.injEq] at hl
      obtain ⟨rfl, rfl⟩ := hl
      exact ⟨s, t, rfl, h1, h2⟩
  | eps | set | altL | altR | seq => cases e

theorem deriv_iff (a : Bx) (c : UInt8) (cs : Bytes) :
    (a.deriv c).Lang cs ↔ a.Lang (c :: cs) := by
  induction a generalizing cs with
  | none => simp only [deriv]; constructor <;> intro h <;> cases h
  | eps => simp only [deriv]; constructor <;> intro h <;> cases h
  | set p =>
    simp only [deriv]
    split
    · constructor
      · intro h; cases h; exact .set (by assumption)
      · intro h; cases h; exact .eps
    · constructor
      · intro h; cases h
      · intro h; cases h; simp_all
  | alt a b iha ihb =>
    simp only [deriv]
    constructor
    · intro h
      cases h with
      | altL h => exact .altL ((iha _).1 h)
      | altR h => exact .altR ((ihb _).1 h)
    · intro h
      cases h with
      | altL h => exact .altL ((iha _).2 h)
      | altR h => exact .altR ((ihb _).2 h)
  | seq a b iha ihb =>
    have fwd : (Bx.seq (a.deriv c) b).Lang cs → (Bx.seq a b).Lang (c :: cs) := by
      intro h
      cases h with
      | seq h h' => exact Lang.seq ((iha _).1 h) h'
    have bwd : (Bx.seq a b).Lang (c :: cs) →
        (Bx.seq (a.deriv c) b).Lang cs ∨ (a.Lang [] ∧ b.Lang (c :: cs)) := by
      intro h
      generalize e : c :: cs = l at h
      cases h with
      | @seq _ s _ t h h' =>
        cases s with
        | nil => exact .inr ⟨h, by simpa using h'⟩
        | cons d s =>
          simp only [List.cons_append, List.cons.injEq] at e
          obtain ⟨rfl, rfl⟩ := e
          exact .inl (.seq ((iha _).2 h) h')
    simp only [deriv]
    split
    · rename_i hn
      rw [nullable_iff] at hn
      constructor
      · intro h
        cases h with
        | altL h => exact fwd h
        | altR h => exact Lang.seq (s := []) hn ((ihb _).1 h)
      · intro h
        rcases bwd h with h | ⟨_, h⟩
        · exact .altL h
        · exact .altR ((ihb _).2 h)
    · rename_i hn
      rw [nullable_iff] at hn
      constructor
      · exact fwd
      · intro h
        rcases bwd h with h | ⟨h, _⟩
        · exact h
        · exact absurd h hn
  | star a ih =>
    simp only [deriv]
    constructor
    · intro h
      cases h with
      | seq h h' => exact Lang.starCons ((ih _).1 h) h'
    · intro h
      obtain ⟨s, t, rfl, h1, h2⟩ := star_cons h c cs rfl
      exact .seq ((ih _).2 h1) h2

theorem run_iff (a : Bx) (cs : Bytes) : a.run cs = true ↔ a.Lang cs := by
  induction cs generalizing a with
  | nil => exact nullable_iff a
  | cons c cs ih => rw [Bx.run, ih, deriv_iff]

theorem lang_seq {a b : Bx} {l : Bytes} :
    (Bx.seq a b).Lang l ↔ ∃ s t, l = s ++ t ∧ a.Lang s ∧ b.Lang t := by
  constructor
  · intro h
    cases h with
    | @seq _ s _ t h h' => exact ⟨s, t, rfl, h, h'⟩
  · rintro ⟨s, t, rfl, h, h'⟩
    exact .seq h h'

theorem lang_set {p : UInt8 → Bool} {l : Bytes} :
    (Bx.set p).Lang l ↔ ∃ c, l = [c] ∧ p c = true := by
  constructor
  · intro h
    cases h with
    | set h => exact ⟨_, rfl, h⟩
  · rintro ⟨c, rfl, h⟩
    exact .set h

theorem lang_star_set {p : UInt8 → Bool} (l : Bytes) :
    (Bx.star (.set p)).Lang l ↔ ∀ c ∈ l, p c = true := by
  constructor
  · intro h
    generalize e : Bx.star (.set p) = r at h
    induction h with
    | starNil => simp
    | starCons h1 h2 _ ih =>
      cases e
      obtain ⟨d, rfl, hd⟩ := lang_set.1 h1
      intro c hc
      rcases List.mem_cons.1 (by simpa using hc) with rfl | hc
      · exact hd
      · exact ih rfl c hc
    | eps | set | altL | altR | seq => cases e
  · induction l with
    | nil => intro _; exact .starNil
    | cons c l ih =>
      intro h
      exact Lang.starCons (s := [c]) (.set (h c (by simp))) (ih fun d hd => h d (by simp [hd]))


/-- the bytes a text may begin with -/
def first (b : UInt8) : Bx → Bool
  | .none => false
  | .eps => false
  | .set p => p b
  | .alt r s => r.first b || s.first b
  | .seq r s => r.first b || (r.nullable && s.first b)
  | .star r => r.first b

theorem lang_first {a : Bx} {b : UInt8} {s : Bytes} (h : a.Lang (b :: s)) : a.first b = true := by
  induction a generalizing s with
  | none => cases h
  | eps => cases h
  | set p => obtain ⟨c, hc, hp⟩ := lang_set.1 h; cases hc; exact hp
  | alt r t ihr iht =>
    simp only [first, Bool.or_eq_true]
    cases h with
    | altL h => exact .inl (ihr h)
    | altR h => exact .inr (iht h)
  | seq r t ihr iht =>
    simp only [first, Bool.or_eq_true, Bool.and_eq_true]
    obtain ⟨u, v, e, h1, h2⟩ := lang_seq.1 h
    cases u with
    | nil =>
      simp only [List.nil_append] at e
      subst e
      exact .inr ⟨(nullable_iff r).2 h1, iht h2⟩
    | cons c u =>
      simp only [List.cons_append, List.cons.injEq] at e
      obtain ⟨rfl, rfl⟩ := e
      exact .inl (ihr h1)
  | star r ih =>
    obtain ⟨u, v, rfl, h1, -⟩ := star_cons h b s rfl
    exact ih h1

/-- the bytes a text may contain -/
def alpha (b : UInt8) : Bx → Bool
  | .none => false
  | .eps => false
  | .set p => p b
  | .alt r s => r.alpha b || s.alpha b
  | .seq r s => r.alpha b || s.alpha b
  | .star r => r.alpha b

theorem lang_alpha {a : Bx} {s : Bytes} (h : a.Lang s) : ∀ b ∈ s, a.alpha b = true := by
  induction h with
  | eps => simp
  | set h => intro b hb; simp only [List.mem_singleton] at hb; subst hb; exact h
  | altL _ ih => intro b hb; simp only [alpha, Bool.or_eq_true]; exact .inl (ih b hb)
  | altR _ ih => intro b hb; simp only [alpha, Bool.or_eq_true]; exact .inr (ih b hb)
  | seq _ _ ih1 ih2 =>
    intro b hb
    simp only [alpha, Bool.or_eq_true]
    rcases List.mem_append.1 hb with hb | hb
    · exact .inl (ih1 b hb)
    · exact .inr (ih2 b hb)
  | starNil => simp
  | starCons _ _ ih1 ih2 =>
    intro b hb
    rcases List.mem_append.1 hb with hb | hb
    · exact ih1 b hb
    · exact ih2 b hb

theorem run_first {a : Bx} {b : UInt8} {s : Bytes} (h : a.first b = false) : a.run (b :: s) = false := by
  rw [Bool.eq_false_iff]
  intro hr
  rw [lang_first ((run_iff _ _).1 hr)] at h
  cases h

theorem run_alpha {a : Bx} {s : Bytes} (b : UInt8) (hb : b ∈ s) (h : a.alpha b = false) : a.run s = false := by
  rw [Bool.eq_false_iff]
  intro hr
  rw [lang_alpha ((run_iff _ _).1 hr) b hb] at h
  cases h

theorem lang_seqs_cons {r : Bx} {rs : List Bx} {l : Bytes} :
    (seqs (r :: rs)).Lang l ↔ ∃ s t, l = s ++ t ∧ r.Lang s ∧ (seqs rs).Lang t := lang_seq

theorem seqs_cons {r : Bx} {rs : List Bx} {s t : Bytes} (h1 : r.Lang s) (h2 : (seqs rs).Lang t) :
    (seqs (r :: rs)).Lang (s ++ t) := .seq h1 h2

theorem seqs_nil : (seqs []).Lang [] := .eps

theorem lang_chr (c : UInt8) : (chr c).Lang [c] := .set (by simp)

theorem lang_letter (c : UInt8) : (letter c).Lang [c] := .set (by simp)

theorem opt_none (r : Bx) : (opt r).Lang [] := .altL .eps

theorem opt_some {r : Bx} {s : Bytes} (h : r.Lang s) : (opt r).Lang s := .altR h

theorem run_chr_cons (c : UInt8) (r : Bx) (s : Bytes) : (Bx.seq (chr c) r).run (c :: s) = r.run s := by
  rw [Bool.eq_iff_iff, run_iff, run_iff]
  constructor
  · intro h
    obtain ⟨u, v, e, h1, h2⟩ := lang_seq.1 h
    obtain ⟨d, rfl, -⟩ := lang_set.1 h1
    simp only [List.singleton_append, List.cons.injEq] at e
    rw [e.2]; exact h2
  · intro h
    exact Lang.seq (s := [c]) (lang_chr c) h

end Bx

/-! ## Numbers -/

theorem natText_lang (n : Nat) : (Bx.alt (.seq (.set fun b => 49 ≤ b && b ≤ 57) (.star rxDigit)) (.chr 48)).Lang (natText n) := by
  have key : ∀ n, n ≠ 0 → (Bx.seq (.set fun b => 49 ≤ b && b ≤ 57) (.star rxDigit)).Lang (natText n) := by
    intro n
    induction n using Nat.strongRecOn with
    | ind n ih =>
      intro h0
      rw [natText]
      split
      · rename_i h
        refine Bx.Lang.seq (s := [UInt8.ofNat (48 + n)]) (t := []) (.set ?_) .starNil
        interval_cases n
        all_goals first | exact absurd rfl h0 | decide
      · rename_i h
        obtain ⟨s, t, e, h1, h2⟩ := Bx.lang_seq.1 (ih (n / 10) (by omega) (by omega))
        rw [e, List.append_assoc]
        refine .seq h1 ?_
        rw [rxDigit, Bx.lang_star_set] at *
        intro b hb
        rcases List.mem_append.1 hb with hb | hb
        · exact h2 b hb
        · simp only [List.mem_singleton] at hb
          subst hb
          have : n % 10 < 10 := Nat.mod_lt _ (by decide)
          generalize n % 10 = m at this
          interval_cases m <;> decide
  by_cases h : n = 0
  · subst h
    refine .altR ?_
    have : natText 0 = [48] := by rw [natText]; rfl
    rw [this]; exact Bx.lang_chr 48
  · exact .altL (key n h)

theorem intText_lang (i : Int) : rxInteger.Lang (intText i) := by
  unfold intText rxInteger
  split
  · exact Bx.Lang.seq (s := [45]) (Bx.opt_some (.set (by decide))) (natText_lang _)
  · exact Bx.Lang.seq (s := []) (Bx.opt_none _) (natText_lang _)

theorem natText_integer (n : Nat) : rxInteger.Lang (natText n) :=
  Bx.Lang.seq (s := []) (Bx.opt_none _) (natText_lang n)

theorem digits_lang {s : Bytes} (h : Digits s) (h0 : s ≠ []) : rxDigit.plus.Lang s := by
  cases s with
  | nil => exact absurd rfl h0
  | cons b s =>
    have hb : ∀ c ∈ b :: s, (fun b : UInt8 => decide (48 ≤ b) && decide (b ≤ 57)) c = true := by
      intro c hc
      have := h c hc
      simp only [Bool.and_eq_true, decide_eq_true_eq, UInt8.le_iff_toNat_le]
      exact this
    refine Bx.Lang.seq (s := [b]) (.set (hb b (by simp))) ?_
    rw [rxDigit, Bx.lang_star_set]
    intro c hc
    exact hb c (by simp [hc])

theorem natText_decimal (n : Nat) : rxDecimal.Lang (natText n) := by
  have h := Bx.seqs_cons (Bx.opt_none rxSign) (Bx.seqs_cons (digits_lang (natText_digits n) (natText_ne_nil n))
    (Bx.seqs_cons (Bx.opt_none (.seq (.chr 46) rxDigit.plus)) Bx.seqs_nil))
  unfold rxDecimal; simpa using h

/-! ## Kinds of tokens -/

theorem tokKind_int (i : Int) : tokKind (intText i) = some .integer := by
  have h1 : rxNan.run (intText i) = false := by
    cases e : intText i with
    | nil => exact absurd e (intText_ne_nil i)
    | cons b s =>
      refine Bx.run_first ?_
      have hb := intText_bytes i b (by rw [e]; simp)
      have h : b.toNat ≤ 57 := by rcases hb with rfl | hb; decide; exact hb.2
      have : b = UInt8.ofNat b.toNat := by simp
      rw [this]
      generalize b.toNat = n at h
      interval_cases n <;> rfl
  have h2 := (Bx.run_iff _ _).2 (intText_lang i)
  simp only [tokKind, tokRules, List.find?_cons, h1, h2, Option.map_some]

/-- quoted texts are none of the first tokens -/
theorem tokKind_quoted (s : Bytes) : tokKind (39 :: s) =
    (([(TcTok.timestampTz, rxTimestampTz), (.timestamp, rxTimestamp), (.time, rxTime), (.date, rxDate),
    (.intervalYear, rxIntervalYear), (.intervalDay, rxIntervalDay), (.intervalCompound, rxIntervalCompound),
    (.string, rxString)] : List (TcTok × Bx)).find? fun r => r.2.run (39 :: s)).map (·.1) := by
  have h1 : rxNan.run (39 :: s) = false := Bx.run_first rfl
  have h2 : rxInteger.run (39 :: s) = false := Bx.run_first rfl
  have h3 : rxDecimal.run (39 :: s) = false := Bx.run_first rfl
  have h4 : rxFloat.run (39 :: s) = false := Bx.run_first rfl
  have h5 : rxBoolean.run (39 :: s) = false := Bx.run_first rfl
  have h6 : rxNull.run (39 :: s) = false := Bx.run_first rfl
  simp only [tokKind, tokRules, List.find?_cons, h1, h2, h3, h4, h5, h6]

theorem tokKind_letter (b : UInt8) (s : Bytes) (h : isDigit b = false) : tokKind (39 :: b :: s) =
    (([(TcTok.intervalYear, rxIntervalYear), (.intervalDay, rxIntervalDay), (.intervalCompound, rxIntervalCompound),
    (.string, rxString)] : List (TcTok × Bx)).find? fun r => r.2.run (39 :: b :: s)).map (·.1) := by
  have hd : (48 ≤ b && b ≤ 57) = false := by
    have : isDigit b = (48 ≤ b && b ≤ 57) := by simp [isDigit, UInt8.le_iff_toNat_le]
    rw [← this]; exact h
  have g : ∀ r : Bx, r.first b = false → (Bx.seq (Bx.chr 39) r).run (39 :: b :: s) = false := by
    intro r hr
    rw [Bx.run_chr_cons]; exact Bx.run_first hr
  have h1 : rxTimestampTz.run (39 :: b :: s) = false := g _ (by
    simp [Bx.first, Bx.seqs, rxDatePart, rxDigit, Bx.nullable, hd])
  have h2 : rxTimestamp.run (39 :: b :: s) = false := g _ (by
    simp [Bx.first, Bx.seqs, rxDatePart, rxDigit, Bx.nullable, hd])
  have h3 : rxTime.run (39 :: b :: s) = false := g _ (by
    simp [Bx.first, Bx.seqs, rxTimePart, rxDigit, Bx.nullable, hd])
  have h4 : rxDate.run (39 :: b :: s) = false := g _ (by
    simp [Bx.first, Bx.seqs, rxDatePart, rxDigit, Bx.nullable, hd])
  rw [tokKind_quoted]
  simp only [List.find?_cons, h1, h2, h3, h4]

end Verif
