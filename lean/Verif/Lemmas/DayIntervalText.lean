import Verif.Model.DayIntervalText
import Verif.Lemmas.DayInterval
/-! # Helper lemmas about printing day-time intervals -/

namespace Verif

theorem decimal_natText (n : Nat) : decimal (natText n) = n := by
  have h1 := atoiDigits_natText n 0 rfl
  rw [atoiDigits_of _ (natText_digits n)] at h1
  have h2 := digitsNat_eq (natText n)
  unfold digitsNat at h2
  rw [← h2]
  exact Option.some.inj h1

theorem natText_isNumber (n : Nat) : IsNumber (natText n) := ⟨natText_ne_nil n, natText_digits n⟩

theorem decimal_snoc (s : Bytes) (b : UInt8) : decimal (s ++ [b]) = decimal s * 10 + (b.toNat - 48) := by
  unfold decimal; simp [Nat.ofDigits_cons]; omega

theorem mod_pow_succ (v k : Nat) : v % 10 ^ (k + 1) = v / 10 % 10 ^ k * 10 + v % 10 := by
  rw [pow_succ, Nat.mul_comm, Nat.mod_mul]; omega

theorem fmtFracLoop_true (prec : Nat) : ∀ (v : Nat) (buf : Bytes), ∃ ds, Digits ds ∧ ds.length = prec ∧
    decimal ds = v % 10 ^ prec ∧ fmtFracLoop prec v true buf = (ds ++ buf, v / 10 ^ prec, true) := by
  induction prec with
  | zero => intro v buf; exact ⟨[], digits_nil, rfl, by simp [decimal, Nat.mod_one], by simp [fmtFracLoop]⟩
  | succ k ih =>
      intro v buf
      obtain ⟨ds, h1, h2, h3, h4⟩ := ih (v / 10) (UInt8.ofNat (48 + v % 10) :: buf)
      have hd := digit_toNat (n := v % 10) (by omega)
      refine ⟨ds ++ [UInt8.ofNat (48 + v % 10)], ?_, by simp [h2], ?_, ?_⟩
      · intro b hb
        simp only [List.mem_append, List.mem_singleton] at hb
        rcases hb with hb | rfl
        · exact h1 b hb
        · rw [hd]; omega
      · rw [decimal_snoc, h3, hd, mod_pow_succ]; omega
      · unfold fmtFracLoop
        rw [if_pos (by simp), h4, Nat.div_div_eq_div_mul, pow_succ, Nat.mul_comm 10]
        simp

theorem fmtFracLoop_false (prec : Nat) : ∀ (v : Nat) (buf : Bytes), ∃ ds, Digits ds ∧ ds.length ≤ prec ∧
    decimal ds * 10 ^ (prec - ds.length) = v % 10 ^ prec ∧
    fmtFracLoop prec v false buf = (ds ++ buf, v / 10 ^ prec, decide (ds ≠ [])) := by
  induction prec with
  | zero => intro v buf; exact ⟨[], digits_nil, le_refl _, by simp [decimal, Nat.mod_one], by simp [fmtFracLoop]⟩
  | succ k ih =>
      intro v buf
      by_cases hz : v % 10 = 0
      · obtain ⟨ds, h1, h2, h3, h4⟩ := ih (v / 10) buf
        refine ⟨ds, h1, by omega, ?_, ?_⟩
        · rw [mod_pow_succ, ← h3, hz, Nat.succ_sub h2, pow_succ]; ring
        · unfold fmtFracLoop
          rw [if_neg (by simp [hz]), h4, Nat.div_div_eq_div_mul, pow_succ, Nat.mul_comm 10]
      · obtain ⟨ds, h1, h2, h3, h4⟩ := fmtFracLoop_true k (v / 10) (UInt8.ofNat (48 + v % 10) :: buf)
        have hd := digit_toNat (n := v % 10) (by omega)
        refine ⟨ds ++ [UInt8.ofNat (48 + v % 10)], ?_, by simp [h2], ?_, ?_⟩
        · intro b hb
          simp only [List.mem_append, List.mem_singleton] at hb
          rcases hb with hb | rfl
          · exact h1 b hb
          · rw [hd]; omega
        · rw [decimal_snoc, h3, hd, mod_pow_succ]; simp [h2]
        · unfold fmtFracLoop
          rw [if_pos (by simp [hz]), h4, Nat.div_div_eq_div_mul, pow_succ, Nat.mul_comm 10]
          simp

/-- a fraction as it is printed: a point and digits, or nothing -/
def fracText (ds : Bytes) : Bytes := if ds = [] then [] else 46 :: ds

theorem fmtFrac_spec (buf : Bytes) (v prec : Nat) : ∃ ds, Digits ds ∧ ds.length ≤ prec ∧
    decimal ds * 10 ^ (prec - ds.length) = v % 10 ^ prec ∧
    fmtFrac buf v prec = (fracText ds ++ buf, v / 10 ^ prec) := by
  obtain ⟨ds, h1, h2, h3, h4⟩ := fmtFracLoop_false prec v buf
  refine ⟨ds, h1, h2, h3, ?_⟩
  unfold fmtFrac
  rw [h4]
  simp only [fracText]
  by_cases h : ds = [] <;> simp [h]

theorem toUpper_cons {b : UInt8} (h : b ≠ 194) (r : Bytes) :
    toUpper (b :: r) = (if 97 ≤ b.toNat ∧ b.toNat ≤ 122 then b - 32 else b) :: toUpper r := by
  rw [toUpper.eq_def]
  split
  · rename_i heq; injection heq with h1 _; exact absurd h1 h
  · rename_i heq; injection heq with h1 h2; rw [h1, h2]
  · rename_i heq; cases heq

theorem toUpper_digits {s : Bytes} (h : Digits s) (r : Bytes) : toUpper (s ++ r) = s ++ toUpper r := by
  induction s with
  | nil => rfl
  | cons b s ih =>
      have hb := h b (by simp)
      rw [List.cons_append, toUpper_cons (by rintro rfl; revert hb; decide), ih (fun c hc => h c (by simp [hc])),
        if_neg (by omega)]
      rfl

theorem toUpper_frac {s : Bytes} (h : Digits s) (r : Bytes) : toUpper (fracText s ++ r) = fracText s ++ toUpper r := by
  unfold fracText
  split
  · rfl
  · rw [List.cons_append, toUpper_cons (by decide), toUpper_digits h]; rfl

/-- the parts printed for a number of seconds and digits of a second -/
def printedParts (days : Option Bytes) (secs : Nat) (ds : Bytes) : DayParts :=
  ⟨days, true, if secs / 60 / 60 > 0 then some (natText (secs / 60 / 60)) else none,
    if secs / 60 > 0 then some (natText (secs / 60 % 60)) else none,
    some (natText (secs % 60), if ds = [] then none else some ds)⟩

theorem printedParts_wf {days : Option Bytes} (hd : ∀ s, days = some s → IsNumber s) (secs : Nat) {ds : Bytes}
    (h : Digits ds) : (printedParts days secs ds).Wf := by
  constructor
  · exact hd
  · intro s hs
    simp only [printedParts] at hs
    split at hs <;> cases hs
    exact natText_isNumber _
  · intro s hs
    simp only [printedParts] at hs
    split at hs <;> cases hs
    exact natText_isNumber _
  · intro w f hs
    simp only [printedParts] at hs
    injection hs with hs; injection hs with h1 h2
    rw [← h1]; exact natText_digits _
  · intro w f hs
    simp only [printedParts] at hs
    injection hs with hs; injection hs with h1 h2
    split at h2
    · cases h2
    · rename_i hne; cases h2; exact ⟨hne, h⟩
  · intro h; cases h

theorem printedParts_values (days : Option Bytes) (secs : Nat) (ds : Bytes) :
    (printedParts days secs ds).wholeSeconds = secs ∧ (printedParts days secs ds).fracDigits = ds ∧
    (printedParts days secs ds).whole = secs % 60 := by
  refine ⟨?_, ?_, ?_⟩
  · unfold DayParts.wholeSeconds DayParts.whole printedParts
    simp only [decimal_natText]
    split <;> split <;> simp only [decimalOpt, decimal_natText] <;> omega
  · unfold DayParts.fracDigits printedParts
    by_cases h : ds = [] <;> simp [h]
  · unfold DayParts.whole printedParts
    simp only [decimal_natText]

/-- from one second on, a duration is printed as hours, minutes and seconds -/
theorem durationString_long {d : Nat} (h : 1000000000 ≤ d) (days : Option Bytes) :
    ∃ ds, Digits ds ∧ ds.length ≤ 9 ∧ decimal ds * 10 ^ (9 - ds.length) = d % 1000000000 ∧
      (printedParts days (d / 1000000000) ds).text =
        80 :: (unitText 68 days ++ 84 :: toUpper (durationString d)) := by
  obtain ⟨ds, h1, h2, h3, h4⟩ := fmtFrac_spec [115] d 9
  refine ⟨ds, h1, h2, h3, ?_⟩
  have h5 : durationString (d : Int) =
      (if d / 1000000000 / 60 > 0 then
        if d / 1000000000 / 60 / 60 > 0 then
          natText (d / 1000000000 / 60 / 60) ++ 104 :: (natText (d / 1000000000 / 60 % 60) ++ 109 ::
            (natText (d / 1000000000 % 60) ++ (fracText ds ++ [115])))
        else natText (d / 1000000000 / 60 % 60) ++ 109 :: (natText (d / 1000000000 % 60) ++ (fracText ds ++ [115]))
      else natText (d / 1000000000 % 60) ++ (fracText ds ++ [115])) := by
    unfold durationString
    simp only [Int.natAbs_natCast]
    rw [if_neg (by omega), if_neg (by omega), h4]
    rfl
  have u1 : toUpper [115] = [83] := by decide
  have u2 : ∀ r, toUpper (109 :: r) = 77 :: toUpper r := fun r => by rw [toUpper_cons (by decide)]; rfl
  have u3 : ∀ r, toUpper (104 :: r) = 72 :: toUpper r := fun r => by rw [toUpper_cons (by decide)]; rfl
  have hsec : ∀ n, secondsText (some (natText n, if ds = [] then none else some ds)) =
      natText n ++ (fracText ds ++ [83]) := by
    intro n
    unfold fracText
    by_cases h : ds = [] <;> simp [h, secondsText]
  have hsx : toUpper (natText (d / 1000000000 % 60) ++ (fracText ds ++ [115])) =
      natText (d / 1000000000 % 60) ++ (fracText ds ++ [83]) := by
    rw [toUpper_digits (natText_digits _), toUpper_frac h1, u1]
  rw [h5]
  unfold DayParts.text printedParts
  simp only [if_true, hsec]
  by_cases hm : d / 1000000000 / 60 > 0
  · by_cases hh : d / 1000000000 / 60 / 60 > 0
    · rw [if_pos hm, if_pos hh, if_pos hm, if_pos hh, toUpper_digits (natText_digits _), u3,
        toUpper_digits (natText_digits _), u2, hsx]
      simp [unitText]
    · rw [if_pos hm, if_neg hh, if_pos hm, if_neg hh, toUpper_digits (natText_digits _), u2, hsx]
      simp [unitText]
  · rw [if_neg hm, if_neg hm, if_neg (by omega), hsx]
    simp [unitText]

/-- below one second, the text ends in a letter and `S` -/
theorem durationString_short {d : Nat} (h0 : 0 < d) (h : d < 1000000000) :
    ∃ s c, isDigit c = false ∧ toUpper (durationString d) = s ++ [c, 83] := by
  have key : ∀ (prec : Nat) (buf : Bytes) (c : UInt8), isDigit c = false → (∃ a, toUpper buf = a ++ [c, 83]) →
      ∃ s c, isDigit c = false ∧
        toUpper (natText (fmtFrac buf d prec).2 ++ (fmtFrac buf d prec).1) = s ++ [c, 83] := by
    intro prec buf c hc ⟨a, ha⟩
    obtain ⟨ds, h1, h2, h3, h4⟩ := fmtFrac_spec buf d prec
    rw [h4]
    refine ⟨natText (d / 10 ^ prec) ++ (fracText ds ++ a), c, hc, ?_⟩
    simp only
    rw [toUpper_digits (natText_digits _), toUpper_frac h1, ha]
    simp
  unfold durationString
  simp only [Int.natAbs_natCast]
  rw [if_neg (by omega), if_pos h, if_neg (by omega)]
  split
  · exact key 0 [110, 115] 78 rfl ⟨[], by decide⟩
  · split
    · exact key 3 [194, 181, 115] 156 rfl ⟨[206], by decide⟩
    · exact key 6 [109, 115] 77 rfl ⟨[], by decide⟩

theorem subSeconds_spec {s : Int} {p : Nat} (h0 : 0 ≤ s) (h1 : s < 10 ^ p) (hp : p ≤ 9) :
    subSecondsToDuration s p = .ok (s * 10 ^ (9 - p)) := by
  have : p = 0 ∨ p = 1 ∨ p = 2 ∨ p = 3 ∨ p = 4 ∨ p = 5 ∨ p = 6 ∨ p = 7 ∨ p = 8 ∨ p = 9 := by omega
  rcases this with rfl | rfl | rfl | rfl | rfl | rfl | rfl | rfl | rfl | rfl <;>
    simp only [subSecondsToDuration] <;> norm_num at h1 ⊢
  · rw [wrap64_id (by omega) (by omega)]
  · rw [wrap64_id (by omega) (by omega), goDiv_eq _ _ (by omega)]; split <;> omega
  · rw [wrap64_id (by omega) (by omega), goDiv_eq _ _ (by omega)]; split <;> omega
  · rw [wrap64_id (by omega) (by omega)]
  · rw [wrap64_id (x := s * 100) (by omega) (by omega), wrap64_id (by omega) (by omega)]; omega
  · rw [wrap64_id (x := s * 10) (by omega) (by omega), wrap64_id (by omega) (by omega)]; omega
  · rw [wrap64_id (by omega) (by omega)]
  · rw [wrap64_id (by omega) (by omega)]
  · rw [wrap64_id (by omega) (by omega)]
  · rw [wrap64_id (by omega) (by omega)]

/-- a text that ends in a letter and `S` has no fraction of a second -/
theorem parse_letter_S (big : ℚ → Int × Int × Int) {s : Bytes} {c : UInt8} (hc : isDigit c = false) {v : IntervalDay}
    (h : parseIntervalDaysToSecond big (s ++ [c, 83]) = .ok v) : v.subseconds = 0 := by
  unfold parseIntervalDaysToSecond at h
  split at h
  · cases h
  · split at h
    · cases h
    · rename_i g hg
      have hgs : g.whole = [] ∧ g.frac = none := by
        obtain ⟨p, hp, hs⟩ := dayRegexp_some hg
        have hg2 := hg
        rw [hs, dayRegexp_text hp] at hg2
        cases hg2
        simp only
        have notD : ∀ {t : Bytes}, Digits t → t ≠ [] → ∀ (r : Bytes), s ++ [c, 83] = r ++ t ++ [83] → False := by
          intro t ht hne r he
          obtain ⟨t', b, rfl⟩ : ∃ t' b, t = t' ++ [b] := ⟨t.dropLast, t.getLast hne, (List.dropLast_append_getLast hne).symm⟩
          have h2 : s ++ [c] ++ [83] = (r ++ t') ++ [b] ++ [83] := by simpa using he
          have h3 := (List.append_inj' h2 rfl).1
          have h4 := (List.append_inj' h3 rfl).2
          injection h4 with h4
          have := ht b (by simp)
          rw [← h4] at this
          have := (isDigit_iff c).mpr this
          rw [hc] at this; cases this
        rcases hps : p.seconds with _ | ⟨w, _ | f⟩
        · simp
        · simp only [Option.getD_some, and_true]
          by_contra hw
          have ht : p.time = true := by
            by_contra hf
            have := (hp.time (by simpa using hf)).2.2
            rw [hps] at this; cases this
          refine notD (hp.whole _ _ hps) hw (80 :: (unitText 68 p.days ++ 84 ::
            (unitText 72 p.hours ++ unitText 77 p.minutes))) ?_
          rw [hs]
          simp [DayParts.text, ht, hps, secondsText]
        · exfalso
          have ht : p.time = true := by
            by_contra hf
            have := (hp.time (by simpa using hf)).2.2
            rw [hps] at this; cases this
          have hf := hp.frac _ _ hps
          refine notD hf.2 hf.1 (80 :: (unitText 68 p.days ++ 84 ::
            (unitText 72 p.hours ++ unitText 77 p.minutes ++ w ++ [46]))) ?_
          rw [hs]
          simp [DayParts.text, ht, hps, secondsText]
      have hx : parseFloatGroup g.whole g.frac = .ok 0 := by
        unfold parseFloatGroup; rw [if_pos hgs]
      have hsp : splitSeconds big 0 = (0, 0, 0) := by
        unfold splitSeconds
        rw [if_pos (by norm_num)]
        simp [f64_zero]
      obtain ⟨a, _, h⟩ := Res.bind_eq_ok.mp h
      obtain ⟨b, _, h⟩ := Res.bind_eq_ok.mp h
      obtain ⟨m, _, h⟩ := Res.bind_eq_ok.mp h
      rw [hx, Res.ok_bind, hsp] at h
      simp only at h
      split at h <;> cases h <;> rfl

end Verif
