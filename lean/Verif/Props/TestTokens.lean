import Verif.Lemmas.TestTokens
/-!
# C136: which kind of value a quoted text of a test file is
-/

namespace Verif

private theorem at_two_digit {y r : Bytes} {n : Nat} (h : DigitsOf n y) (hn : 2 < n) :
    ∃ b, (y ++ r)[2]? = some b ∧ 48 ≤ b.toNat ∧ b.toNat ≤ 57 := by
  obtain ⟨h1, h2⟩ := h
  refine ⟨y[2], by rw [List.getElem?_append_left (by omega)]; simp, ?_⟩
  exact h1 _ (List.getElem_mem _)

private theorem date_two {s : Bytes} (h : DateText s) (r : Bytes) : (s ++ r)[2]? ≠ some 58 := by
  obtain ⟨y, m, d, hy, -, -, rfl⟩ := h
  rw [List.append_assoc]
  obtain ⟨b, e, h1, h2⟩ := at_two_digit (r := (45 :: (m ++ 45 :: d)) ++ r) hy (by omega)
  rw [e]
  rintro ⟨⟩
  simp at h2

private theorem time_two {s : Bytes} (h : TimeText s) : s[2]? = some 58 := by
  obtain ⟨y, m, c, f, ⟨-, hy⟩, -, -, -, rfl⟩ := h
  rw [List.getElem?_append_right (by omega), hy]
  rfl

private theorem date_length {s : Bytes} (h : DateText s) : s.length = 10 := by
  obtain ⟨y, m, d, ⟨-, hy⟩, ⟨-, hm⟩, ⟨-, hd⟩, rfl⟩ := h
  simp [hy, hm, hd]

private theorem time_length {s : Bytes} (h : TimeText s) : 8 ≤ s.length := by
  obtain ⟨y, m, c, f, ⟨-, hy⟩, ⟨-, hm⟩, ⟨-, hd⟩, -, rfl⟩ := h
  simp [hy, hm, hd]
  omega

private theorem dateTime_length {s : Bytes} (h : DateTimeText s) : 19 ≤ s.length := by
  obtain ⟨d, l, t, hd, -, ht, rfl⟩ := h
  have h1 := date_length hd
  have h2 := time_length ht
  simp
  omega

private theorem dateTime_two {s : Bytes} (h : DateTimeText s) (r : Bytes) : (s ++ r)[2]? ≠ some 58 := by
  obtain ⟨d, l, t, hd, -, ht, rfl⟩ := h
  rw [List.append_assoc]
  exact date_two hd _

private theorem time_sign {s : Bytes} (h : TimeText s) : ∀ b ∈ s, b ≠ 43 ∧ b ≠ 45 := by
  have hd : ∀ {u : Bytes}, Digits u → ∀ b ∈ u, b ≠ 43 ∧ b ≠ 45 := by
    intro u hu b hb
    have := hu b hb
    constructor <;> (rintro rfl; simp at this)
  obtain ⟨y, m, c, f, ⟨hy, -⟩, ⟨hm, -⟩, ⟨hc, -⟩, hf, rfl⟩ := h
  intro b hb
  simp only [List.mem_append, List.mem_cons] at hb
  rcases hb with hb | rfl | hb | rfl | hb | hb
  · exact hd hy b hb
  · decide
  · exact hd hm b hb
  · decide
  · exact hd hc b hb
  · rcases hf with rfl | ⟨g, hg, -, rfl⟩
    · simp at hb
    · rcases List.mem_cons.1 hb with rfl | hb
      · decide
      · exact hd hg b hb

private theorem offset_length {s : Bytes} (h : OffsetText s) : s.length = 6 := by
  obtain ⟨c, y, m, -, ⟨-, hy⟩, ⟨-, hm⟩, rfl⟩ := h
  simp [hy, hm]

private theorem zoned_plain {s : Bytes} (h : DateTimeText s) : ¬ ZonedText s := by
  rintro ⟨u, o, hu, ho, e⟩
  obtain ⟨d, l, t, hd, -, ht, rfl⟩ := h
  have h1 := offset_length ho
  have h2 := time_length ht
  have hs : o <:+ t := by
    refine List.suffix_of_suffix_length_le (l₃ := d ++ l :: t) ⟨u, e.symm⟩ ⟨d ++ [l], by simp⟩ (by omega)
  obtain ⟨c, y, m, hc, -, -, rfl⟩ := ho
  have h3 := time_sign ht c (hs.subset (by simp))
  rcases hc with rfl | rfl
  · exact h3.1 rfl
  · exact h3.2 rfl

open Bx in
private theorem kind_quoted (s : Bytes) : tokKind (39 :: (s ++ [39])) =
    (([(TcTok.timestampTz, rxTimestampTz), (.timestamp, rxTimestamp), (.time, rxTime), (.date, rxDate),
    (.intervalYear, rxIntervalYear), (.intervalDay, rxIntervalDay), (.intervalCompound, rxIntervalCompound),
    (.string, rxString)] : List (TcTok × Bx)).find? fun r => r.2.run (39 :: (s ++ [39]))).map (·.1) := tokKind_quoted _

open Bx in
private theorem zoned_run (s : Bytes) : rxTimestampTz.run (39 :: (s ++ [39])) = true ↔ ZonedText s := by
  rw [run_iff, rxTimestampTz, lang_quoted, dateTime_lang]
  simp only [offset_lang]
  constructor
  · rintro ⟨u, v, e, h1, h2⟩; exact ⟨u, v, h1, h2, e⟩
  · rintro ⟨u, v, h1, h2, e⟩; exact ⟨u, v, e, h1, h2⟩

open Bx in
private theorem dateTime_run (s : Bytes) : rxTimestamp.run (39 :: (s ++ [39])) = true ↔ DateTimeText s := by
  rw [run_iff, rxTimestamp, lang_quoted, dateTime_lang]
  simp only [lang_seqs_nil]
  constructor
  · rintro ⟨u, v, rfl, h1, rfl⟩; simpa using h1
  · intro h; exact ⟨s, [], by simp, h, rfl⟩

open Bx in
private theorem single_run (r : Bx) (s : Bytes) : (rxQuoted [r]).run (39 :: (s ++ [39])) = true ↔ r.Lang s := by
  rw [run_iff, lang_quoted, lang_seqs_cons]
  simp only [lang_seqs_nil]
  constructor
  · rintro ⟨u, v, rfl, h1, rfl⟩; simpa using h1
  · intro h; exact ⟨s, [], by simp, h, rfl⟩

private theorem time_run (s : Bytes) : rxTime.run (39 :: (s ++ [39])) = true ↔ TimeText s := by
  rw [rxTime, single_run, time_lang]

private theorem date_run (s : Bytes) : rxDate.run (39 :: (s ++ [39])) = true ↔ DateText s := by
  rw [rxDate, single_run, date_lang]

open Bx in
private theorem string_run (s : Bytes) : rxString.run (39 :: (s ++ [39])) = true ↔ StringText s := by
  rw [run_iff, string_lang]

open Bx in
private theorem period_run (rs : List Bx) (s : Bytes) (h : (rxQuoted (.letter 80 :: rs)).run (39 :: (s ++ [39])) = true) :
    ∃ b t, s = b :: t ∧ (b = 80 ∨ b = 112) := by
  rw [run_iff, lang_quoted, Bx.letter, lang_seqs_set] at h
  obtain ⟨b, t, e, hb, -⟩ := h
  exact ⟨b, t, e, by simpa using hb⟩

/-- C136: a quoted text is a timestamp with a zone exactly if it is a date, a `T`, a time and an offset with its sign;
a timestamp exactly if it is the same without the offset; a time exactly if it is hours, minutes and seconds; and a
date exactly if it is a year of four digits, a month and a day of two. -/
theorem C136_dates (s : Bytes) :
    (tokKind (39 :: (s ++ [39])) = some .timestampTz ↔ ZonedText s) ∧
    (tokKind (39 :: (s ++ [39])) = some .timestamp ↔ DateTimeText s) ∧
    (tokKind (39 :: (s ++ [39])) = some .time ↔ TimeText s) ∧
    (tokKind (39 :: (s ++ [39])) = some .date ↔ DateText s) := by
  have z := zoned_run s
  have p := dateTime_run s
  have t := time_run s
  have d := date_run s
  have h1 : DateTimeText s → ¬ ZonedText s := zoned_plain
  have h2 : TimeText s → ¬ ZonedText s := by
    rintro h ⟨u, o, hu, -, rfl⟩
    exact dateTime_two hu o (time_two h)
  have h3 : TimeText s → ¬ DateTimeText s := fun h hu => by
    have := dateTime_two hu []
    rw [List.append_nil] at this
    exact this (time_two h)
  have h4 : DateText s → ¬ ZonedText s := by
    rintro h ⟨u, o, hu, -, rfl⟩
    have e1 := date_length h
    have e2 := dateTime_length hu
    simp at e1
    omega
  have h5 : DateText s → ¬ DateTimeText s := fun h hu => by
    have e1 := date_length h
    have e2 := dateTime_length hu
    omega
  have h6 : DateText s → ¬ TimeText s := fun h hu => by
    have := date_two h []
    rw [List.append_nil] at this
    exact this (time_two hu)
  rw [kind_quoted]
  simp only [List.find?_cons]
  refine ⟨⟨?_, ?_⟩, ⟨?_, ?_⟩, ⟨?_, ?_⟩, ⟨?_, ?_⟩⟩ <;> intro h
  · revert h
    split
    · intro _; exact z.1 ‹_›
    · repeat' split
      all_goals simp
  · rw [z.2 h]; rfl
  · revert h
    split
    · simp
    · split
      · intro _; exact p.1 ‹_›
      · repeat' split
        all_goals simp
  · rw [p.2 h, Bool.eq_false_iff.2 fun e => h1 h (z.1 e)]; rfl
  · revert h
    split
    · simp
    split
    · simp
    split
    · intro _; exact t.1 ‹_›
    repeat' split
    all_goals simp
  · rw [t.2 h, Bool.eq_false_iff.2 fun e => h2 h (z.1 e), Bool.eq_false_iff.2 fun e => h3 h (p.1 e)]; rfl
  · revert h
    split
    · simp
    split
    · simp
    split
    · simp
    split
    · intro _; exact d.1 ‹_›
    repeat' split
    all_goals simp
  · rw [d.2 h, Bool.eq_false_iff.2 fun e => h4 h (z.1 e), Bool.eq_false_iff.2 fun e => h5 h (p.1 e),
      Bool.eq_false_iff.2 fun e => h6 h (t.1 e)]; rfl

/-- C136: a quoted text that does not begin with a `P` is a string exactly if its quotes are doubled or escaped, its
backslashes have a byte behind them, and it is none of the dates and times. -/
theorem C136_strings (s : Bytes) (hp : s.head? ≠ some 80 ∧ s.head? ≠ some 112) :
    tokKind (39 :: (s ++ [39])) = some .string ↔
      StringText s ∧ ¬ ZonedText s ∧ ¬ DateTimeText s ∧ ¬ TimeText s ∧ ¬ DateText s := by
  have z := zoned_run s
  have p := dateTime_run s
  have t := time_run s
  have d := date_run s
  have q := string_run s
  have no : ∀ rs, (rxQuoted (.letter 80 :: rs)).run (39 :: (s ++ [39])) = false := by
    intro rs
    refine Bool.eq_false_iff.2 fun h => ?_
    obtain ⟨b, r, rfl, rfl | rfl⟩ := period_run rs s h
    · exact hp.1 rfl
    · exact hp.2 rfl
  have n1 : rxIntervalYear.run (39 :: (s ++ [39])) = false := no _
  have n2 : rxIntervalDay.run (39 :: (s ++ [39])) = false := no _
  have n3 : rxIntervalCompound.run (39 :: (s ++ [39])) = false := no _
  rw [kind_quoted]
  simp only [List.find?_cons, n1, n2, n3]
  constructor
  · intro h
    revert h
    split
    · simp
    split
    · simp
    split
    · simp
    split
    · simp
    split
    · intro _
      exact ⟨q.1 ‹_›, fun e => by simp_all, fun e => by simp_all, fun e => by simp_all, fun e => by simp_all⟩
    · simp
  · rintro ⟨hq, hz, hp, ht, hd⟩
    rw [q.2 hq, Bool.eq_false_iff.2 fun e => hz (z.1 e), Bool.eq_false_iff.2 fun e => hp (p.1 e),
      Bool.eq_false_iff.2 fun e => ht (t.1 e), Bool.eq_false_iff.2 fun e => hd (d.1 e)]
    rfl

/-- C136: whatever the text begins with, what is read as a string has its quotes doubled or escaped and a byte behind
every backslash. -/
theorem C136_string_text (s : Bytes) (h : tokKind (39 :: (s ++ [39])) = some .string) : StringText s := by
  have q := string_run s
  rw [kind_quoted] at h
  simp only [List.find?_cons] at h
  revert h
  split
  · simp
  split
  · simp
  split
  · simp
  split
  · simp
  split
  · simp
  split
  · simp
  split
  · simp
  split
  · intro _; exact q.1 ‹_›
  · simp

/-- C136: an interval begins with a `P` or a `p` -/
theorem C136_intervals (s : Bytes) (k : TcTok) (hk : k = .intervalYear ∨ k = .intervalDay ∨ k = .intervalCompound)
    (h : tokKind (39 :: (s ++ [39])) = some k) : ∃ b t, s = b :: t ∧ (b = 80 ∨ b = 112) := by
  rw [kind_quoted] at h
  simp only [List.find?_cons] at h
  revert h
  split
  · rintro ⟨⟩; simp at hk
  split
  · rintro ⟨⟩; simp at hk
  split
  · rintro ⟨⟩; simp at hk
  split
  · rintro ⟨⟩; simp at hk
  split
  · intro _; exact period_run _ s ‹_›
  split
  · intro _; exact period_run _ s ‹_›
  split
  · intro _; exact period_run _ s ‹_›
  split
  · rintro ⟨⟩; simp at hk
  · simp

/-- The statement of C136: `'text'::date` is an argument exactly if the text is a date, and so for times, timestamps
without and with a zone, and for strings. -/
def C136_statement : Prop := ∀ (s : Bytes) (q : Bool),
  ((∃ a, tcArgOf (39 :: (s ++ [39])) (.prim .date q) = some a) ↔ DateText s) ∧
  ((∃ a, tcArgOf (39 :: (s ++ [39])) (.prim .time q) = some a) ↔ TimeText s) ∧
  ((∃ a, tcArgOf (39 :: (s ++ [39])) (.prim .timestamp q) = some a) ↔ DateTimeText s) ∧
  ((∃ a, tcArgOf (39 :: (s ++ [39])) (.prim .timestampTz q) = some a) ↔ ZonedText s) ∧
  ((∃ a, tcArgOf (39 :: (s ++ [39])) (.prim .string q) = some a) ↔ StringText s)

private theorem not_null (s : Bytes) : tokKind (39 :: (s ++ [39])) ≠ some .null := by
  rw [kind_quoted]
  simp only [List.find?_cons]
  repeat' split
  all_goals simp

private theorem arg_of {s : Bytes} {k : TcTok} {t : TcType} {mk : Bytes → TcArg}
    (h1 : ∀ u, tokKind u = some k → tcArgOf u t = some (mk u))
    (h2 : ∀ u, tokKind u ≠ some k → tokKind u ≠ some .null → tcArgOf u t = none) :
    (∃ a, tcArgOf (39 :: (s ++ [39])) t = some a) ↔ tokKind (39 :: (s ++ [39])) = some k := by
  constructor
  · rintro ⟨a, h⟩
    by_contra hk
    rw [h2 _ hk (not_null s)] at h
    cases h
  · intro h
    exact ⟨_, h1 _ h⟩

private theorem arg_string (s : Bytes) (q : Bool) :
    (∃ a, tcArgOf (39 :: (s ++ [39])) (.prim .string q) = some a) ↔ tokKind (39 :: (s ++ [39])) = some .string :=
  arg_of (mk := .string q) (fun u h => by simp [tcArgOf, h])
    (fun u h1 h2 => by unfold tcArgOf; split <;> simp_all)

/-- **C136, partial.** Dates, times and timestamps are arguments of their types exactly if they are written as such;
strings are refused unless their quotes are doubled or escaped; those so written are arguments exactly if they look
like no date or time, provided that they do not begin with a `P`. Missing: strings that look like dates, times or
intervals (`C136_negation`). -/
theorem C136_arguments_partial (s : Bytes) (q : Bool) :
    ((∃ a, tcArgOf (39 :: (s ++ [39])) (.prim .date q) = some a) ↔ DateText s) ∧
    ((∃ a, tcArgOf (39 :: (s ++ [39])) (.prim .time q) = some a) ↔ TimeText s) ∧
    ((∃ a, tcArgOf (39 :: (s ++ [39])) (.prim .timestamp q) = some a) ↔ DateTimeText s) ∧
    ((∃ a, tcArgOf (39 :: (s ++ [39])) (.prim .timestampTz q) = some a) ↔ ZonedText s) ∧
    ((∃ a, tcArgOf (39 :: (s ++ [39])) (.prim .string q) = some a) → StringText s) ∧
    (s.head? ≠ some 80 → s.head? ≠ some 112 → ((∃ a, tcArgOf (39 :: (s ++ [39])) (.prim .string q) = some a) ↔
      StringText s ∧ ¬ ZonedText s ∧ ¬ DateTimeText s ∧ ¬ TimeText s ∧ ¬ DateText s)) := by
  obtain ⟨hz, hp, ht, hd⟩ := C136_dates s
  refine ⟨?_, ?_, ?_, ?_, ?_, ?_⟩
  · rw [← hd]
    exact arg_of (mk := .date q) (fun u h => by simp [tcArgOf, h]) (fun u h1 h2 => by unfold tcArgOf; split <;> simp_all)
  · rw [← ht]
    exact arg_of (mk := .time q) (fun u h => by simp [tcArgOf, h]) (fun u h1 h2 => by unfold tcArgOf; split <;> simp_all)
  · rw [← hp]
    exact arg_of (mk := .timestamp q) (fun u h => by simp [tcArgOf, h])
      (fun u h1 h2 => by unfold tcArgOf; split <;> simp_all)
  · rw [← hz]
    exact arg_of (mk := .timestampTz q) (fun u h => by simp [tcArgOf, h])
      (fun u h1 h2 => by unfold tcArgOf; split <;> simp_all)
  · rw [arg_string]
    exact C136_string_text s
  · intro h1 h2
    rw [arg_string]
    exact C136_strings s ⟨h1, h2⟩

/-- `1991-07-23` -/
private def exDate : Bytes := [49, 57, 57, 49, 45, 48, 55, 45, 50, 51]
/-- `10:11:12.5` -/
private def exTime : Bytes := [49, 48, 58, 49, 49, 58, 49, 50, 46, 53]

private theorem exDate_text : DateText exDate :=
  ⟨[49, 57, 57, 49], [48, 55], [50, 51], ⟨by unfold Digits; decide, rfl⟩, ⟨by unfold Digits; decide, rfl⟩,
    ⟨by unfold Digits; decide, rfl⟩, rfl⟩

private theorem exTime_text : TimeText exTime :=
  ⟨[49, 48], [49, 49], [49, 50], [46, 53], ⟨by unfold Digits; decide, rfl⟩, ⟨by unfold Digits; decide, rfl⟩,
    ⟨by unfold Digits; decide, rfl⟩, .inr ⟨[53], by unfold Digits; decide, by simp, rfl⟩, rfl⟩

/-- **C136 is false of the code**: `'1991-07-23'::string` is no argument, since the text is read as a date. -/
theorem C136_negation : ¬ C136_statement := by
  intro h
  obtain ⟨-, -, -, -, h⟩ := h exDate false
  rw [arg_string, (C136_dates exDate).2.2.2.2 exDate_text] at h
  have := h.2 (by
    unfold exDate
    repeat' first | exact .nil | refine .plain _ (by decide) (by decide) ?_)
  simp at this

/-- the same of every text that is a date, a time or a timestamp: none can be an argument of type string -/
theorem C136_negation_dates (s : Bytes) (q : Bool)
    (h : ZonedText s ∨ DateTimeText s ∨ TimeText s ∨ DateText s) :
    tcArgOf (39 :: (s ++ [39])) (.prim .string q) = none := by
  obtain ⟨hz, hp, ht, hd⟩ := C136_dates s
  have hn : tokKind (39 :: (s ++ [39])) ≠ some .string := by
    rcases h with h | h | h | h
    · rw [hz.2 h]; simp
    · rw [hp.2 h]; simp
    · rw [ht.2 h]; simp
    · rw [hd.2 h]; simp
  cases e : tcArgOf (39 :: (s ++ [39])) (.prim .string q) with
  | none => rfl
  | some a => exact absurd ((arg_string s q).1 ⟨a, e⟩) hn

example : ZonedText exDate ∨ DateTimeText exDate ∨ TimeText exDate ∨ DateText exDate := .inr (.inr (.inr exDate_text))

/-- `'1991-07-23T10:11:12.5-07:00'` is a timestamp with a zone -/
example : tokKind (39 :: ((exDate ++ 84 :: exTime) ++ [45, 48, 55, 58, 48, 48] ++ [39])) = some .timestampTz :=
  (C136_dates _).1.2 ⟨_, _, ⟨_, _, _, exDate_text, .inl rfl, exTime_text, rfl⟩,
    ⟨45, [48, 55], [48, 48], .inr rfl, ⟨by unfold Digits; decide, rfl⟩, ⟨by unfold Digits; decide, rfl⟩, rfl⟩, rfl⟩

/-- without the sign of its offset, `'1991-07-23T10:11:12.507:00'` is no timestamp with a zone -/
example : tokKind (39 :: ((exDate ++ 84 :: exTime) ++ [48, 55, 58, 48, 48] ++ [39])) = some .string := by decide +kernel

/-- `'1991-07-23'` is a date, `'it\'s'` and `'it''s'` are strings, and `'it's'` and `'\'` are no tokens -/
example : tokKind (39 :: (exDate ++ [39])) = some .date := (C136_dates _).2.2.2.2 exDate_text

example : tokKind (39 :: ([105, 116, 92, 39, 115] ++ [39])) = some .string ∧
    tokKind (39 :: ([105, 116, 39, 39, 115] ++ [39])) = some .string ∧
    tokKind (39 :: ([105, 116, 39, 115] ++ [39])) = none ∧ tokKind (39 :: ([92] ++ [39])) = none := by decide +kernel

example : ([105, 116, 92, 39, 115] : Bytes).head? ≠ some 80 ∧ ([105, 116, 92, 39, 115] : Bytes).head? ≠ some 112 := by
  decide

/-- `'P1Y'` is an interval of years, `'P'` is one that is compound -/
example : tokKind (39 :: ([80, 49, 89] ++ [39])) = some .intervalYear ∧
    tokKind (39 :: ([80] ++ [39])) = some .intervalCompound := by decide +kernel

end Verif
