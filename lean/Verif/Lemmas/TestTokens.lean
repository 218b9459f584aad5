import Verif.Spec.TestTokens
import Verif.Lemmas.TestLex
/-!
# Lemmas about the tokens of dates, times and strings
-/

namespace Verif

namespace Bx

theorem lang_seqs_append {rs qs : List Bx} {l : Bytes} :
    (seqs (rs ++ qs)).Lang l ↔ ∃ s t, l = s ++ t ∧ (seqs rs).Lang s ∧ (seqs qs).Lang t := by
  induction rs generalizing l with
  | nil =>
      constructor
      · intro h; exact ⟨[], l, rfl, .eps, h⟩
      · rintro ⟨s, t, rfl, h1, h2⟩
        cases h1
        exact h2
  | cons r rs ih =>
      rw [List.cons_append, lang_seqs_cons]
      constructor
      · rintro ⟨s, t, rfl, h1, h2⟩
        obtain ⟨u, v, rfl, h3, h4⟩ := ih.1 h2
        exact ⟨s ++ u, v, by simp, seqs_cons h1 h3, h4⟩
      · rintro ⟨s, t, rfl, h1, h2⟩
        obtain ⟨u, v, rfl, h3, h4⟩ := lang_seqs_cons.1 h1
        exact ⟨u, v ++ t, by simp, h3, ih.2 ⟨v, t, rfl, h4, h2⟩⟩

theorem lang_seqs_set {p : UInt8 → Bool} {rs : List Bx} {l : Bytes} :
    (seqs (.set p :: rs)).Lang l ↔ ∃ b t, l = b :: t ∧ p b = true ∧ (seqs rs).Lang t := by
  rw [lang_seqs_cons]
  constructor
  · rintro ⟨s, t, rfl, h1, h2⟩
    obtain ⟨c, rfl, hc⟩ := lang_set.1 h1
    exact ⟨c, t, rfl, hc, h2⟩
  · rintro ⟨b, t, rfl, h1, h2⟩
    exact ⟨[b], t, rfl, .set h1, h2⟩

theorem lang_seqs_chr {c : UInt8} {rs : List Bx} {l : Bytes} :
    (seqs (chr c :: rs)).Lang l ↔ ∃ t, l = c :: t ∧ (seqs rs).Lang t := by
  rw [chr, lang_seqs_set]
  simp

theorem lang_seqs_digits {n : Nat} {rs : List Bx} {l : Bytes} :
    (seqs (List.replicate n rxDigit ++ rs)).Lang l ↔ ∃ s t, l = s ++ t ∧ DigitsOf n s ∧ (seqs rs).Lang t := by
  induction n generalizing l with
  | zero =>
      constructor
      · intro h; exact ⟨[], l, rfl, ⟨by simp [Digits], rfl⟩, h⟩
      · rintro ⟨s, t, rfl, ⟨-, h⟩, h2⟩
        rw [List.length_eq_zero_iff.1 h]
        exact h2
  | succ n ih =>
      rw [List.replicate_succ, List.cons_append, rxDigit, lang_seqs_set]
      constructor
      · rintro ⟨b, t, rfl, hb, h⟩
        obtain ⟨s, t, rfl, ⟨h1, h2⟩, h3⟩ := ih.1 h
        refine ⟨b :: s, t, rfl, ⟨?_, by simp [h2]⟩, h3⟩
        intro c hc
        rcases List.mem_cons.1 hc with rfl | hc
        · simpa [UInt8.le_iff_toNat_le] using hb
        · exact h1 c hc
      · rintro ⟨s, t, rfl, ⟨h1, h2⟩, h3⟩
        cases s with
        | nil => simp at h2
        | cons b s =>
            refine ⟨b, s ++ t, rfl, ?_, ih.2 ⟨s, t, rfl, ⟨fun c hc => h1 c (by simp [hc]), by simpa using h2⟩, h3⟩⟩
            simpa [UInt8.le_iff_toNat_le] using h1 b (by simp)

theorem lang_seqs_nil {l : Bytes} : (seqs []).Lang l ↔ l = [] := by
  constructor
  · intro h; cases h; rfl
  · rintro rfl; exact .eps

theorem lang_plus_digits {l : Bytes} : rxDigit.plus.Lang l ↔ Digits l ∧ l ≠ [] := by
  constructor
  · intro h
    obtain ⟨s, t, rfl, h1, h2⟩ := lang_seq.1 h
    obtain ⟨b, rfl, hb⟩ := lang_set.1 h1
    rw [rxDigit, lang_star_set] at h2
    refine ⟨?_, by simp⟩
    intro c hc
    rcases List.mem_cons.1 hc with rfl | hc
    · simpa [UInt8.le_iff_toNat_le] using hb
    · simpa [UInt8.le_iff_toNat_le] using h2 c hc
  · rintro ⟨h1, h2⟩
    exact digits_lang h1 h2

theorem lang_quoted {rs : List Bx} {s : Bytes} : (rxQuoted rs).Lang (39 :: (s ++ [39])) ↔ (seqs rs).Lang s := by
  have h : (rxQuoted rs).Lang (39 :: (s ++ [39])) ↔ (seqs (chr 39 :: (rs ++ [chr 39]))).Lang (39 :: (s ++ [39])) := Iff.rfl
  rw [h, lang_seqs_chr]
  constructor
  · rintro ⟨t, e, h⟩
    cases e
    obtain ⟨u, v, e, h1, h2⟩ := lang_seqs_append.1 h
    obtain ⟨w, rfl, h3⟩ := lang_seqs_chr.1 h2
    rw [lang_seqs_nil] at h3
    subst h3
    rw [List.append_cancel_right e]
    exact h1
  · intro h
    exact ⟨_, rfl, lang_seqs_append.2 ⟨s, [39], rfl, h, lang_seqs_chr.2 ⟨[], rfl, seqs_nil⟩⟩⟩

end Bx

open Bx

theorem date_lang {s : Bytes} : rxDatePart.Lang s ↔ DateText s := by
  have h : rxDatePart = seqs (List.replicate 4 rxDigit ++ (chr 45 :: (List.replicate 2 rxDigit ++
    (chr 45 :: (List.replicate 2 rxDigit ++ []))))) := rfl
  rw [h]
  simp only [lang_seqs_digits, lang_seqs_chr, lang_seqs_nil]
  constructor
  · rintro ⟨y, _, rfl, hy, _, rfl, m, _, rfl, hm, _, rfl, d, _, rfl, hd, rfl⟩
    exact ⟨y, m, d, hy, hm, hd, by simp⟩
  · rintro ⟨y, m, d, hy, hm, hd, rfl⟩
    exact ⟨y, _, rfl, hy, _, rfl, m, _, rfl, hm, _, rfl, d, [], by simp, hd, rfl⟩

theorem fraction_lang {s : Bytes} : (Bx.opt (.seq (.chr 46) rxDigit.plus)).Lang s ↔
    (s = [] ∨ ∃ g, Digits g ∧ g ≠ [] ∧ s = 46 :: g) := by
  constructor
  · intro h
    cases h with
    | altL h => cases h; exact .inl rfl
    | altR h =>
        obtain ⟨u, v, rfl, h1, h2⟩ := lang_seq.1 h
        obtain ⟨c, rfl, hc⟩ := lang_set.1 h1
        obtain ⟨g1, g2⟩ := lang_plus_digits.1 h2
        simp only [beq_iff_eq] at hc
        subst hc
        exact .inr ⟨v, g1, g2, rfl⟩
  · rintro (rfl | ⟨g, h1, h2, rfl⟩)
    · exact opt_none _
    · exact opt_some (Lang.seq (s := [46]) (lang_chr 46) (digits_lang h1 h2))

theorem time_lang {s : Bytes} : rxTimePart.Lang s ↔ TimeText s := by
  have h : rxTimePart = seqs (List.replicate 2 rxDigit ++ (chr 58 :: (List.replicate 2 rxDigit ++
    (chr 58 :: (List.replicate 2 rxDigit ++ [Bx.opt (.seq (.chr 46) rxDigit.plus)]))))) := rfl
  rw [h]
  simp only [lang_seqs_digits, lang_seqs_chr]
  constructor
  · rintro ⟨y, _, rfl, hy, _, rfl, m, _, rfl, hm, _, rfl, d, _, rfl, hd, h⟩
    obtain ⟨f, v, rfl, hf, h⟩ := lang_seqs_cons.1 h
    rw [lang_seqs_nil] at h
    subst h
    exact ⟨y, m, d, f, hy, hm, hd, fraction_lang.1 hf, by simp⟩
  · rintro ⟨y, m, d, f, hy, hm, hd, hf, rfl⟩
    exact ⟨y, _, rfl, hy, _, rfl, m, _, rfl, hm, _, rfl, d, f, rfl, hd,
      lang_seqs_cons.2 ⟨f, [], by simp, fraction_lang.2 hf, seqs_nil⟩⟩

theorem offset_lang {s : Bytes} : (seqs [rxSign, rxDigit, rxDigit, .chr 58, rxDigit, rxDigit]).Lang s ↔ OffsetText s := by
  have h : seqs [rxSign, rxDigit, rxDigit, .chr 58, rxDigit, rxDigit] = seqs (rxSign :: (List.replicate 2 rxDigit ++
    (chr 58 :: (List.replicate 2 rxDigit ++ [])))) := rfl
  rw [h, rxSign]
  simp only [lang_seqs_set, lang_seqs_digits, lang_seqs_chr, lang_seqs_nil]
  constructor
  · rintro ⟨c, _, rfl, hc, y, _, rfl, hy, _, rfl, m, _, rfl, hm, rfl⟩
    exact ⟨c, y, m, by simpa using hc, hy, hm, by simp⟩
  · rintro ⟨c, y, m, hc, hy, hm, rfl⟩
    exact ⟨c, _, rfl, by simpa using hc, y, _, rfl, hy, _, rfl, m, [], by simp, hm, rfl⟩

theorem dateTime_lang {rs : List Bx} {s : Bytes} : (seqs (rxDatePart :: .letter 84 :: rxTimePart :: rs)).Lang s ↔
    ∃ u v, s = u ++ v ∧ DateTimeText u ∧ (seqs rs).Lang v := by
  simp only [Bx.letter]
  rw [lang_seqs_cons]
  constructor
  · rintro ⟨d, _, rfl, hd, h⟩
    obtain ⟨c, _, rfl, hc, h⟩ := lang_seqs_set.1 h
    obtain ⟨t, v, rfl, ht, h⟩ := lang_seqs_cons.1 h
    exact ⟨d ++ c :: t, v, by simp, ⟨d, c, t, date_lang.1 hd, by simpa using hc, time_lang.1 ht, rfl⟩, h⟩
  · rintro ⟨u, v, rfl, ⟨d, c, t, hd, hc, ht, rfl⟩, h⟩
    exact ⟨d, c :: (t ++ v), by simp, date_lang.2 hd, lang_seqs_set.2 ⟨c, _, rfl, by simpa using hc,
      lang_seqs_cons.2 ⟨t, v, rfl, time_lang.2 ht, h⟩⟩⟩

theorem string_lang {s : Bytes} : (rxString.Lang (39 :: (s ++ [39]))) ↔ StringText s := by
  have h : rxString = rxQuoted [.star (.alt (.seq (.chr 92) (.set fun _ => true))
    (.alt (.seq (.chr 39) (.chr 39)) (.set fun b => b != 39 && b != 92)))] := rfl
  rw [h, lang_quoted, lang_seqs_cons]
  constructor
  · rintro ⟨u, v, rfl, h1, h2⟩
    rw [lang_seqs_nil] at h2
    subst h2
    rw [List.append_nil]
    generalize e : Bx.star _ = r at h1
    induction h1 with
    | starNil => exact .nil
    | starCons h1 h2 _ ih =>
        cases e
        have ih := ih rfl
        cases h1 with
        | altL h =>
            obtain ⟨u, v, rfl, h1, h2⟩ := lang_seq.1 h
            obtain ⟨c, rfl, hc⟩ := lang_set.1 h1
            obtain ⟨d, rfl, hd⟩ := lang_set.1 h2
            simp only [beq_iff_eq] at hc
            subst hc
            exact .escaped d ih
        | altR h =>
            cases h with
            | altL h =>
                obtain ⟨u, v, rfl, h1, h2⟩ := lang_seq.1 h
                obtain ⟨c, rfl, hc⟩ := lang_set.1 h1
                obtain ⟨d, rfl, hd⟩ := lang_set.1 h2
                simp only [beq_iff_eq] at hc hd
                subst hc hd
                exact .quotes ih
            | altR h =>
                obtain ⟨c, rfl, hc⟩ := lang_set.1 h
                simp only [bne_iff_ne, Bool.and_eq_true] at hc
                exact .plain c hc.1 hc.2 ih
    | _ => cases e
  · intro h
    refine ⟨s, [], by simp, ?_, seqs_nil⟩
    induction h with
    | nil => exact .starNil
    | plain b h1 h2 _ ih => exact Lang.starCons (s := [b]) (.altR (.altR (.set (by simp [h1, h2])))) ih
    | quotes _ ih =>
        exact Lang.starCons (s := [39, 39]) (.altR (.altL (Lang.seq (s := [39]) (lang_chr 39) (lang_chr 39)))) ih
    | escaped b _ ih =>
        exact Lang.starCons (s := [92, b]) (.altL (Lang.seq (s := [92]) (lang_chr 92) (.set rfl))) ih

end Verif
