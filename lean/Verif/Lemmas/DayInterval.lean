import Verif.Spec.DayInterval
import Verif.Model.DayInterval
import Verif.Lemmas.Float64
import Verif.Lemmas.Time
import Mathlib.Data.List.TakeWhile
/-! # Helper lemmas about the text of day-time intervals -/

namespace Verif

/-! ## Digits -/

theorem isDigit_iff (b : UInt8) : isDigit b = true ↔ 48 ≤ b.toNat ∧ b.toNat ≤ 57 := by
  simp [isDigit]

theorem takeWhile_digits {s : Bytes} (h : Digits s) (c : UInt8) (hc : isDigit c = false) (r : Bytes) :
    (s ++ c :: r).takeWhile isDigit = s ∧ (s ++ c :: r).dropWhile isDigit = c :: r := by
  induction s with
  | nil => simp [hc]
  | cons a s ih =>
      have ha : isDigit a = true := (isDigit_iff a).mpr (h a (by simp))
      have := ih (fun b hb => h b (by simp [hb]))
      simp [ha, this]

theorem takeWhile_isDigits (s : Bytes) : Digits (s.takeWhile isDigit) := by
  intro b hb
  have := List.mem_takeWhile_imp hb
  exact (isDigit_iff b).mp this

theorem optUnit_some {u : UInt8} (hu : isDigit u = false) {s : Bytes} (h : IsNumber s) (r : Bytes) :
    optUnit u (s ++ u :: r) = (s, r) := by
  obtain ⟨h1, h2⟩ := takeWhile_digits h.2 u hu r
  unfold optUnit
  rw [h1, h2]
  simp [h.1]

/-- what follows a missing unit: digits and another character, or nothing -/
theorem optUnit_none {u : UInt8} {s : Bytes} (h : Digits s) (r : Bytes)
    (hr : ∀ c t, r = c :: t → isDigit c = false ∧ (c ≠ u ∨ s = [])) :
    optUnit u (s ++ r) = ([], s ++ r) := by
  cases r with
  | nil =>
      unfold optUnit
      have : (s ++ []).dropWhile isDigit = [] := by
        rw [List.append_nil, List.dropWhile_eq_nil_iff]
        exact fun b hb => (isDigit_iff b).mpr (h b hb)
      rw [this]
  | cons c t =>
      obtain ⟨hc, hcu⟩ := hr c t rfl
      obtain ⟨h1, h2⟩ := takeWhile_digits h c hc t
      unfold optUnit
      rw [h1, h2]
      simp only
      rw [if_neg]
      rintro ⟨h3, h4⟩
      rcases hcu with h | h
      · exact h h4
      · exact h3 h

theorem optUnit_cases (u : UInt8) (s : Bytes) :
    (∃ n r, IsNumber n ∧ s = n ++ u :: r ∧ optUnit u s = (n, r)) ∨ optUnit u s = ([], s) := by
  unfold optUnit
  split
  · rename_i c rest h
    split
    · rename_i h2
      left
      refine ⟨s.takeWhile isDigit, rest, ⟨h2.1, takeWhile_isDigits s⟩, ?_, rfl⟩
      rw [← h2.2, ← h, List.takeWhile_append_dropWhile]
    · right; rfl
  · right; rfl

theorem digitsNat_append (s t : Bytes) (n : Nat) :
    (s ++ t).foldl (fun n b => n * 10 + (b.toNat - 48)) n =
      t.foldl (fun n b => n * 10 + (b.toNat - 48)) (s.foldl (fun n b => n * 10 + (b.toNat - 48)) n) :=
  List.foldl_append ..

theorem digitsNat_eq (s : Bytes) : digitsNat s = decimal s := by
  unfold digitsNat decimal
  induction s using List.reverseRecOn with
  | nil => rfl
  | append_singleton s b ih =>
      rw [List.foldl_append, ih]
      simp [Nat.ofDigits_cons]
      omega

theorem atoiDigits_of (s : Bytes) (h : Digits s) (acc : Nat) :
    atoiDigits acc s = some (s.foldl (fun n b => n * 10 + (b.toNat - 48)) acc) := by
  induction s generalizing acc with
  | nil => rfl
  | cons b s ih =>
      unfold atoiDigits
      rw [if_pos (h b (by simp)), ih (fun c hc => h c (by simp [hc]))]
      rfl

theorem atoi_number {s : Bytes} (h : IsNumber s) :
    atoi s = if (decimal s : Int) > 9223372036854775807 then .err else .ok (decimal s) := by
  obtain ⟨hne, hd⟩ := h
  have ha := atoiDigits_of s hd 0
  have he : s.foldl (fun n b => n * 10 + (b.toNat - 48)) 0 = decimal s := digitsNat_eq s
  rw [he] at ha
  cases s with
  | nil => exact absurd rfl hne
  | cons b s =>
      have hb := hd b (by simp)
      unfold atoi
      split
      rename_i neg ds heq
      split at heq
      · rename_i h; cases h; exact absurd hb (by decide)
      · rename_i h; cases h; exact absurd hb (by decide)
      · cases heq
        rw [if_neg (by simp), ha]
        simp only [Bool.false_eq_true, if_false]
        have : ¬ ((decimal (b :: s) : Int) < -9223372036854775808) := by omega
        simp only [this, false_or]

theorem atoiGroup_opt {o : Option Bytes} (h : ∀ s, o = some s → IsNumber s)
    (hr : decimalOpt o < 2 ^ 63) : atoiGroup (o.getD []) = .ok (decimalOpt o) := by
  cases o with
  | none => rfl
  | some s =>
      have hn := h s rfl
      unfold atoiGroup
      rw [Option.getD_some, if_neg hn.1, atoi_number hn, if_neg]
      · rfl
      · simp only [decimalOpt] at hr; omega

/-! ## The regular expression -/

/-- digits and then a character that is neither a digit nor `u`, or nothing -/
def NotUnit (u : UInt8) (t : Bytes) : Prop :=
  ∃ s r, Digits s ∧ t = s ++ r ∧ ∀ c t, r = c :: t → isDigit c = false ∧ (c ≠ u ∨ s = [])

theorem optUnit_not {u : UInt8} {t : Bytes} (h : NotUnit u t) : optUnit u t = ([], t) := by
  obtain ⟨s, r, hs, rfl, hr⟩ := h
  exact optUnit_none hs r hr

theorem digits_nil : Digits [] := fun _ h => absurd h (by simp)

theorem secondsText_notUnit {o : Option (Bytes × Option Bytes)} (h : ∀ w f, o = some (w, f) → Digits w)
    {u : UInt8} (hu : u ≠ 83) (hu2 : u ≠ 46) : NotUnit u (secondsText o) := by
  rcases o with _ | ⟨w, _ | f⟩
  · exact ⟨[], [], digits_nil, rfl, fun _ _ h => by cases h⟩
  · refine ⟨w, [83], h _ _ rfl, rfl, fun c t he => ?_⟩
    cases he; exact ⟨rfl, Or.inl hu.symm⟩
  · refine ⟨w, 46 :: f ++ [83], h _ _ rfl, by simp [secondsText], fun c t he => ?_⟩
    rw [List.cons_append] at he
    injection he with h1 h2
    subst h1; exact ⟨rfl, Or.inl hu2.symm⟩

theorem optUnit_text {u : UInt8} (hu : isDigit u = false) {o : Option Bytes} (h : ∀ s, o = some s → IsNumber s)
    (r : Bytes) (hr : NotUnit u r) : optUnit u (unitText u o ++ r) = (o.getD [], r) := by
  cases o with
  | none => exact optUnit_not hr
  | some s =>
      simp only [unitText, List.append_assoc, List.singleton_append, Option.getD_some]
      exact optUnit_some hu (h s rfl) r

theorem secondsGroup_text {o : Option (Bytes × Option Bytes)} (h : ∀ w f, o = some (w, f) → Digits w)
    (hf : ∀ w f, o = some (w, some f) → IsNumber f) :
    secondsGroup (secondsText o) = some (o.getD ([], none)) := by
  rcases o with _ | ⟨w, _ | f⟩
  · rfl
  · obtain ⟨h1, h2⟩ := takeWhile_digits (h _ _ rfl) 83 rfl []
    have ht : secondsText (some (w, none)) = w ++ [83] := rfl
    rw [ht]
    unfold secondsGroup
    rw [if_neg (by simp), h1, h2]
    rfl
  · obtain ⟨h1, h2⟩ := takeWhile_digits (h _ _ rfl) 46 rfl (f ++ [83])
    obtain ⟨h3, h4⟩ := takeWhile_digits (hf _ _ rfl).2 83 rfl []
    have ht : secondsText (some (w, some f)) = w ++ 46 :: (f ++ [83]) := by simp [secondsText]
    rw [ht]
    unfold secondsGroup
    rw [if_neg (by simp), h1, h2]
    simp only
    rw [h3, h4, if_pos ⟨(hf _ _ rfl).1, rfl⟩]
    rfl

theorem dayRegexp_text {p : DayParts} (h : p.Wf) :
    dayRegexp p.text = some ⟨p.days.getD [], p.hours.getD [], p.minutes.getD [],
      (p.seconds.getD ([], none)).1, (p.seconds.getD ([], none)).2⟩ := by
  cases ht : p.time with
  | false =>
      obtain ⟨h1, h2, h3⟩ := h.time ht
      have hx : p.text = 80 :: (unitText 68 p.days ++ []) := by simp [DayParts.text, ht]
      rw [hx]
      unfold dayRegexp
      simp only
      rw [optUnit_text rfl h.days [] ⟨[], [], digits_nil, rfl, fun _ _ h => by cases h⟩]
      simp [h1, h2, h3]
  | true =>
      have hx : p.text = 80 :: (unitText 68 p.days ++
          84 :: (unitText 72 p.hours ++ (unitText 77 p.minutes ++ secondsText p.seconds))) := by
        simp [DayParts.text, ht]
      rw [hx]
      unfold dayRegexp
      simp only
      have hm : NotUnit 77 (secondsText p.seconds) := secondsText_notUnit h.whole (by decide) (by decide)
      have hh : NotUnit 72 (unitText 77 p.minutes ++ secondsText p.seconds) := by
        cases hmin : p.minutes with
        | none => exact secondsText_notUnit h.whole (by decide) (by decide)
        | some m =>
            refine ⟨m, 77 :: secondsText p.seconds, (h.minutes m hmin).2, by simp [unitText], fun c t he => ?_⟩
            cases he; exact ⟨rfl, Or.inl (by decide)⟩
      have hd : NotUnit 68 (84 :: (unitText 72 p.hours ++ (unitText 77 p.minutes ++ secondsText p.seconds))) :=
        ⟨[], 84 :: (unitText 72 p.hours ++ (unitText 77 p.minutes ++ secondsText p.seconds)), digits_nil, rfl,
          fun c t he => by cases he; exact ⟨rfl, Or.inr rfl⟩⟩
      rw [optUnit_text rfl h.days _ hd]
      simp only
      rw [optUnit_text rfl h.hours _ hh]
      simp only
      rw [optUnit_text rfl h.minutes _ hm]
      simp only
      rw [secondsGroup_text h.whole h.frac]
      rfl

theorem secondsGroup_some {s : Bytes} {g : Bytes × Option Bytes} (h : secondsGroup s = some g) :
    ∃ o, s = secondsText o ∧ (∀ w f, o = some (w, f) → Digits w) ∧
      (∀ w f, o = some (w, some f) → IsNumber f) := by
  unfold secondsGroup at h
  split at h
  · rename_i hs
    refine ⟨none, hs, ?_, ?_⟩ <;> intro w f h <;> cases h
  · split at h
    · rename_i hd
      refine ⟨some (s.takeWhile isDigit, none), ?_, ?_, ?_⟩
      · simp only [secondsText]; rw [← hd, List.takeWhile_append_dropWhile]
      · rintro w f h; cases h; exact takeWhile_isDigits s
      · rintro w f h; cases h
    · rename_i rest hd
      split at h
      · rename_i hf
        refine ⟨some (s.takeWhile isDigit, some (rest.takeWhile isDigit)), ?_, ?_, ?_⟩
        · simp only [secondsText, List.append_assoc, List.cons_append]
          rw [← hf.2, List.takeWhile_append_dropWhile, ← hd, List.takeWhile_append_dropWhile]
        · rintro w f h; cases h; exact takeWhile_isDigits s
        · rintro w f h; cases h; exact ⟨hf.1, takeWhile_isDigits rest⟩
      · cases h
    · cases h

theorem optUnit_text_of (u : UInt8) (s : Bytes) :
    ∃ o, (∀ n, o = some n → IsNumber n) ∧ s = unitText u o ++ (optUnit u s).2 := by
  rcases optUnit_cases u s with ⟨n, r, hn, hs, ho⟩ | ho
  · refine ⟨some n, fun _ h => by cases h; exact hn, ?_⟩
    rw [ho]; simp [unitText, hs]
  · refine ⟨none, ?_, by rw [ho]; rfl⟩
    intro n h; cases h

theorem dayRegexp_some {s : Bytes} {g : DayGroups} (h : dayRegexp s = some g) :
    ∃ p : DayParts, p.Wf ∧ s = p.text := by
  unfold dayRegexp at h
  split at h
  · rename_i s0
    obtain ⟨d, hd, e1⟩ := optUnit_text_of 68 s0
    rcases e : optUnit 68 s0 with ⟨d0, s1⟩
    rw [e] at h e1
    simp only at h e1
    split at h
    · refine ⟨⟨d, false, none, none, none⟩, ⟨hd, ?_, ?_, ?_, ?_, ?_⟩, ?_⟩ <;> simp [DayParts.text, e1]
    · rename_i s2
      obtain ⟨hh, hhd, e2⟩ := optUnit_text_of 72 s2
      rcases e3 : optUnit 72 s2 with ⟨h0, s3⟩
      rw [e3] at h e2
      simp only at h e2
      obtain ⟨mm, hmd, e4⟩ := optUnit_text_of 77 s3
      rcases e5 : optUnit 77 s3 with ⟨m0, s4⟩
      rw [e5] at h e4
      simp only at h e4
      rcases e6 : secondsGroup s4 with _ | g0
      · rw [e6] at h; cases h
      · obtain ⟨o, e7, ho1, ho2⟩ := secondsGroup_some e6
        refine ⟨⟨d, true, hh, mm, o⟩, ⟨hd, hhd, hmd, ho1, ho2, by simp⟩, ?_⟩
        simp [DayParts.text, e1, e2, e4, e7]
    · cases h
  · cases h

/-! ## The seconds -/

theorem split_close (big : ℚ → Int × Int × Int) {x : ℚ} (h0 : 0 ≤ x) (hx : x < 2 ^ 32) :
    ∃ nanos micros : Int, splitSeconds big x = (⌊x⌋, nanos, micros) ∧ 0 ≤ nanos ∧ 0 ≤ micros ∧
      (nanos : ℚ) ≤ (x - ⌊x⌋) * 1000000000 + 1 / 2 ^ 23 ∧
      (x - ⌊x⌋) * 1000000000 - 1 / 2 ^ 23 < nanos + 1 ∧
      (micros : ℚ) * 1000 ≤ (x - ⌊x⌋) * 1000000000 + 1 / 2 ^ 23 := by
  have hf1 := Int.floor_le x
  have hf2 := Int.lt_floor_add_one x
  have hfn : 0 ≤ ⌊x⌋ := Int.floor_nonneg.mpr h0
  obtain ⟨n, hn⟩ := Int.eq_ofNat_of_zero_le hfn
  have hn32 : n < 2 ^ 32 := by
    have h1 : ((n : ℤ) : ℚ) ≤ x := hn ▸ hf1
    have h2 : ((n : ℤ) : ℚ) < 2 ^ 32 := lt_of_le_of_lt h1 hx
    exact_mod_cast h2
  have hfl : f64 (⌊x⌋ : ℚ) = (⌊x⌋ : ℚ) := by
    rw [hn]
    have := f64_nat (n := n) (by omega)
    exact_mod_cast this
  set y : ℚ := x - ⌊x⌋ with hy
  have y0 : 0 ≤ y := by linarith
  have y1 : y < 1 := by linarith
  have hy' := f64_err y0 (k := 0) (by simpa using y1) (by omega)
  have y0' := f64_nonneg y0
  set z := f64 y with hz
  rw [abs_le] at hy'
  have e54 : (2 : ℚ) ^ ((0 : ℤ) - 54) = 1 / 2 ^ 54 := by norm_num
  rw [e54] at hy'
  have hb9 : z * 1000000000 < 2 ^ (30 : ℤ) := by
    have : (2 : ℚ) ^ (30 : ℤ) = 1073741824 := by norm_num
    rw [this]
    have : z ≤ 1 + 1 / 2 ^ 54 := by linarith [hy'.2]
    norm_num at this ⊢; linarith
  have hb6 : z * 1000000 < 2 ^ (20 : ℤ) := by
    have : (2 : ℚ) ^ (20 : ℤ) = 1048576 := by norm_num
    rw [this]
    have : z ≤ 1 + 1 / 2 ^ 54 := by linarith [hy'.2]
    norm_num at this ⊢; linarith
  have z9 : 0 ≤ z * 1000000000 := by linarith
  have z6 : 0 ≤ z * 1000000 := by linarith
  have h9 := f64_err z9 hb9 (by omega)
  have h6 := f64_err z6 hb6 (by omega)
  rw [abs_le] at h9 h6
  have e24 : (2 : ℚ) ^ ((30 : ℤ) - 54) = 1 / 2 ^ 24 := by norm_num
  have e34 : (2 : ℚ) ^ ((20 : ℤ) - 54) = 1 / 2 ^ 34 := by norm_num
  rw [e24] at h9
  rw [e34] at h6
  have n9 := Int.floor_le (f64 (z * 1000000000))
  have n9' := Int.lt_floor_add_one (f64 (z * 1000000000))
  have n6 := Int.floor_le (f64 (z * 1000000))
  refine ⟨⌊f64 (z * 1000000000)⌋, ⌊f64 (z * 1000000)⌋, ?_, ?_, ?_, ?_, ?_, ?_⟩
  · unfold splitSeconds
    rw [if_pos (lt_trans hx (by norm_num)), hfl]
  · exact Int.floor_nonneg.mpr (f64_nonneg z9)
  · exact Int.floor_nonneg.mpr (f64_nonneg z6)
  · norm_num at hy' h9 ⊢; linarith [hy'.1, hy'.2, h9.1, h9.2]
  · norm_num at hy' h9 ⊢; linarith [hy'.1, hy'.2, h9.1, h9.2]
  · norm_num at hy' h6 ⊢; linarith [hy'.1, hy'.2, h6.1, h6.2]

theorem parseFloat_text {p : DayParts} (hX : (p.whole : ℚ) + p.frac < 2 ^ 31) :
    parseFloatGroup (p.seconds.getD ([], none)).1 (p.seconds.getD ([], none)).2 =
      .ok (f64 (p.whole + p.frac)) := by
  have hv : decimalValue (p.seconds.getD ([], none)).1 (p.seconds.getD ([], none)).2 = p.whole + p.frac := by
    unfold decimalValue DayParts.whole DayParts.frac DayParts.fracDigits
    rcases p.seconds with _ | ⟨w, _ | f⟩ <;> simp [digitsNat_eq] <;> simp [decimal]
  have h0 : (0 : ℚ) ≤ p.whole + p.frac := by
    unfold DayParts.frac; positivity
  have hlt : f64 (p.whole + p.frac) < 2 ^ 1024 := by
    have := f64_err h0 (k := 31) (by exact_mod_cast hX) (by omega)
    rw [abs_le] at this
    have e : (2 : ℚ) ^ ((31 : ℤ) - 54) ≤ 1 := by norm_num
    have h33 : (2 : ℚ) ^ 31 + 1 < 2 ^ 32 := by norm_num
    have h34 : (2 : ℚ) ^ 32 ≤ 2 ^ 1024 := pow_le_pow_right₀ (by norm_num) (by omega)
    refine lt_of_lt_of_le ?_ h34
    linarith [this.2]
  unfold parseFloatGroup
  rw [hv]
  split
  · rename_i h
    have : (p.whole : ℚ) + p.frac = 0 := by
      rw [← hv, h.1, h.2]; simp [decimalValue, digitsNat]
    rw [this, f64_zero]
  · rfl

theorem text_length {p : DayParts} (h : p.Wf) (hs : p.Some) : ¬ p.text.length < 3 := by
  have num : ∀ {s : Bytes}, IsNumber s → 1 ≤ s.length := fun {s} h => by
    have := h.1; cases s with
    | nil => exact absurd rfl this
    | cons => simp
  unfold DayParts.text
  rw [List.length_cons, List.length_append]
  rcases hs with hs | hs
  · obtain ⟨s, hs⟩ := Option.ne_none_iff_exists'.mp hs
    have := num (h.days s hs)
    rw [hs]; simp only [unitText, List.length_append, List.length_singleton]
    omega
  · have ht : p.time = true := by
      by_contra hf
      obtain ⟨h1, h2, h3⟩ := h.time (by simpa using hf)
      rcases hs with hs | hs | hs <;> contradiction
    rw [if_pos ht, List.length_cons, List.length_append, List.length_append]
    rcases hs with hs | hs | hs <;> obtain ⟨s, hs⟩ := Option.ne_none_iff_exists'.mp hs
    · have := num (h.hours s hs)
      rw [hs]; simp only [unitText, List.length_append, List.length_singleton]
      omega
    · have := num (h.minutes s hs)
      rw [hs]; simp only [unitText, List.length_append, List.length_singleton]
      omega
    · have : 1 ≤ (secondsText p.seconds).length := by
        rw [hs]; rcases s with ⟨w, _ | f⟩ <;> simp [secondsText]
        omega
      omega

/-- what is read from a text of the form -/
theorem parse_text (big : ℚ → Int × Int × Int) {p : DayParts} (h : p.Wf) (hs : p.Some)
    (hd : decimalOpt p.days < 2 ^ 63) (hw : p.wholeSeconds < 2 ^ 31) (hf : p.frac < 1) :
    ∃ v nanos micros, parseIntervalDaysToSecond big p.text = .ok v ∧
      splitSeconds big (f64 (p.whole + p.frac)) = (⌊f64 (p.whole + p.frac)⌋, nanos, micros) ∧
      v.days = wrap32 (decimalOpt p.days) ∧
      v.seconds = wrap32 (decimalOpt p.hours * 3600 + decimalOpt p.minutes * 60 + ⌊f64 (p.whole + p.frac)⌋) ∧
      (v.precision = 9 ∧ v.subseconds = nanos ∧ nanos > micros * 1000 ∨
        v.precision = 6 ∧ v.subseconds = micros ∧ nanos ≤ micros * 1000) := by
  unfold DayParts.wholeSeconds at hw
  have hwhole : p.whole + 1 ≤ 2 ^ 31 := by omega
  have hq : (p.whole : ℚ) + 1 ≤ 2 ^ 31 := by
    have : ((p.whole + 1 : ℕ) : ℚ) ≤ ((2 ^ 31 : ℕ) : ℚ) := by exact_mod_cast hwhole
    norm_num at this ⊢; linarith
  have hX : (p.whole : ℚ) + p.frac < 2 ^ 31 := by linarith
  have h0 : (0 : ℚ) ≤ p.whole + p.frac := by unfold DayParts.frac; positivity
  have herr := f64_err h0 (k := 31) (by exact_mod_cast hX) (by omega)
  have e : (2 : ℚ) ^ ((31 : ℤ) - 54) < 1 := by norm_num
  rw [abs_le] at herr
  have hx0 := f64_nonneg h0
  have hx2 : f64 (p.whole + p.frac) < p.whole + 2 := by linarith [herr.2]
  have hx32 : f64 (p.whole + p.frac) < 2 ^ 32 := by
    have : (2 : ℚ) ^ 31 + 1 < 2 ^ 32 := by norm_num
    linarith
  obtain ⟨nanos, micros, hsp, hn0, hm0, hn1, hn2, hm1⟩ := split_close big hx0 hx32
  have hfl0 : 0 ≤ ⌊f64 (p.whole + p.frac)⌋ := Int.floor_nonneg.mpr hx0
  have hfl2 : ⌊f64 (p.whole + p.frac)⌋ < (p.whole : ℤ) + 2 := by
    rw [Int.floor_lt]; push_cast; exact hx2
  have hmicros : micros * 1000 ≤ 1000000001 := by
    have h3 := Int.lt_floor_add_one (f64 (p.whole + p.frac))
    have h4 : (1 : ℚ) / 2 ^ 23 ≤ 1 := by norm_num
    have : ((micros * 1000 : ℤ) : ℚ) ≤ ((1000000001 : ℤ) : ℚ) := by
      push_cast; linarith
    exact_mod_cast this
  unfold parseIntervalDaysToSecond
  rw [if_neg (text_length h hs), dayRegexp_text h]
  simp only
  rw [atoiGroup_opt h.days hd, Res.ok_bind, atoiGroup_opt h.hours (by omega), Res.ok_bind,
    atoiGroup_opt h.minutes (by omega), Res.ok_bind, parseFloat_text hX, Res.ok_bind, hsp]
  simp only
  rw [wrap64_id (x := micros * 1000) (by omega) (by omega),
    wrap64_id (x := (decimalOpt p.hours : Int) * 3600) (by omega) (by omega),
    wrap64_id (x := (decimalOpt p.minutes : Int) * 60) (by omega) (by omega),
    wrap64_id (x := (decimalOpt p.hours : Int) * 3600 + (decimalOpt p.minutes : Int) * 60) (by omega) (by omega),
    wrap64_id (by omega) (by omega),
    Int.add_comm ⌊f64 (p.whole + p.frac)⌋]
  split
  · rename_i hgt
    refine ⟨_, nanos, micros, rfl, rfl, by dsimp only, by dsimp only, Or.inl ⟨rfl, rfl, hgt⟩⟩
  · rename_i hgt
    refine ⟨_, nanos, micros, rfl, rfl, by dsimp only, by dsimp only, Or.inr ⟨rfl, rfl, by omega⟩⟩

theorem decimal_lt {s : Bytes} (h : Digits s) : decimal s < 10 ^ s.length := by
  unfold decimal
  have := Nat.ofDigits_lt_base_pow_length (b := 10) (l := s.reverse.map fun b => b.toNat - 48) (by omega) (by
    intro x hx
    simp only [List.mem_map, List.mem_reverse] at hx
    obtain ⟨b, hb, rfl⟩ := hx
    have := h b hb
    omega)
  simpa using this

theorem fracDigits_digits {p : DayParts} (h : p.Wf) : Digits p.fracDigits := by
  unfold DayParts.fracDigits
  split
  · rename_i w f hs
    exact (h.frac w f hs).2
  · exact digits_nil

theorem frac_lt {p : DayParts} (h : p.Wf) : p.frac < 1 := by
  unfold DayParts.frac
  rw [div_lt_one (by positivity)]
  have := decimal_lt (fracDigits_digits h)
  exact_mod_cast this

/-- below 2^63 seconds nothing depends on the processor -/
theorem parse_big (big big' : ℚ → Int × Int × Int) {s : Bytes} {g : DayGroups} (hg : dayRegexp s = some g) {x : ℚ}
    (hx : parseFloatGroup g.whole g.frac = .ok x) (hlt : x < 2 ^ 63) :
    parseIntervalDaysToSecond big s = parseIntervalDaysToSecond big' s := by
  unfold parseIntervalDaysToSecond
  have : splitSeconds big x = splitSeconds big' x := by
    unfold splitSeconds; rw [if_pos hlt, if_pos hlt]
  rw [hg]
  simp only [hx, Res.ok_bind, this]

/-- a decidable form of `DayParts.Wf` -/
def DayParts.check (p : DayParts) : Bool :=
  let num (s : Bytes) := s ≠ [] && s.all isDigit
  p.days.all num && p.hours.all num && p.minutes.all num &&
    p.seconds.all (fun q => q.1.all isDigit && q.2.all num) &&
    (p.time || p.hours.isNone && p.minutes.isNone && p.seconds.isNone)

theorem isNumber_of {s : Bytes} (h : (s ≠ [] && s.all isDigit) = true) : IsNumber s := by
  simp only [Bool.and_eq_true, decide_eq_true_eq] at h
  exact ⟨h.1, fun b hb => (isDigit_iff b).mp (List.all_eq_true.mp h.2 b hb)⟩

theorem DayParts.wf_of {p : DayParts} (h : p.check = true) : p.Wf := by
  unfold DayParts.check at h
  simp only [Bool.and_eq_true] at h
  obtain ⟨⟨⟨⟨h1, h2⟩, h3⟩, h4⟩, h5⟩ := h
  constructor
  · intro s hs; rw [hs] at h1; exact isNumber_of h1
  · intro s hs; rw [hs] at h2; exact isNumber_of h2
  · intro s hs; rw [hs] at h3; exact isNumber_of h3
  · intro w f hs; rw [hs] at h4
    simp only [Option.all_some, Bool.and_eq_true] at h4
    exact fun b hb => (isDigit_iff b).mp (List.all_eq_true.mp h4.1 b hb)
  · intro w f hs; rw [hs] at h4
    simp only [Option.all_some, Bool.and_eq_true] at h4
    exact isNumber_of (by simpa using h4.2)
  · intro ht; rw [ht] at h5
    simp only [Bool.false_or, Bool.and_eq_true, Option.isNone_iff_eq_none] at h5
    exact ⟨h5.1.1, h5.1.2, h5.2⟩

theorem frac_nonneg (p : DayParts) : 0 ≤ p.frac := by unfold DayParts.frac; positivity

end Verif
