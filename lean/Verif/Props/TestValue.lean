import Verif.Props.TestCaseAgg
import Verif.Props.DayInterval
/-!
# Properties of function test files: dates, times, intervals and other values (C107)

What Go's `time.Parse` and `strconv.ParseFloat` make of a text is given by the parameter `x`.
-/

namespace Verif

/-- **C107.** A timestamp with a precision that is accepted is the instant that the text stands for. -/
def C107_statement : Prop :=
  ∀ (x : TcExt) (k : Prec) (q : Bool) (p : Option Bytes) (text : Bytes) (tm : GoTime) (c : CaseLit),
    (k = .precisionTimestamp ∨ k = .precisionTimestampTz) → x.parseTime (rawString text) = .ok tm → tm.Normal →
    visitTypedArgument x (.prec k q p text) = .ok c →
    ∃ l, c.value = .lit l ∧ l.value = some (.nanos tm.nanos)

/-- **C107 (booleans and floats).** -/
theorem C107_simple (x : TcExt) (q b : Bool) (text : Bytes) (v : UInt64) (hx : x.parseFloat text = .ok v) :
    visitTypedArgument x (.bool q b) =
      .ok ⟨.prim .boolean (mark q) 0, .lit (.prim (.bool b) (.prim .boolean (mark q) 0))⟩ ∧
    visitTypedArgument x (.float .fp64 q text) =
      .ok ⟨.prim .fp64 (mark q) 0, .lit (.prim (.float64 v) (.prim .fp64 (mark q) 0))⟩ ∧
    visitTypedArgument x (.float .fp32 q text) =
      .ok ⟨.prim .fp32 (mark q) 0, .lit (.prim (.float32 (x.toFloat32 v)) (.prim .fp32 (mark q) 0))⟩ := by
  refine ⟨?_, ?_, ?_⟩
  · cases q <;> rfl
  · simp only [visitTypedArgument, visitArgument, tcType, getFloatLiteral, hx, Res.ok_bind]
    cases q <;> rfl
  · simp only [visitTypedArgument, visitArgument, tcType, getFloatLiteral, hx, Res.ok_bind]
    cases q <;> rfl

/-- **C107 (dates).** The text of the day `d` (counted from 1970-01-01) is read as that day. -/
theorem C107_date (x : TcExt) (q : Bool) (text : Bytes) (tm : GoTime) (d : ℤ)
    (hx : x.parseDate (rawString text) = .ok tm) (htm : tm = ⟨d * 86400, 0⟩) (hd : IsInt32 d) :
    ∃ i : Int32, i.toInt = d ∧ visitTypedArgument x (.date q text) =
      .ok ⟨.prim .date (mark q) 0, .lit (.prim (.date i) (.prim .date (mark q) 0))⟩ := by
  refine ⟨Int32.ofInt d, toInt_ofInt_small hd, ?_⟩
  have : goDiv tm.unix 86400 = d := by
    subst htm
    unfold goDiv GoTime.unix
    exact Int.mul_tdiv_cancel d (by decide)
  simp only [visitTypedArgument, visitArgument, newDateFromString, hx, Res.ok_bind, this]
  cases q <;> rfl

theorem toInt_ofInt64 {i : ℤ} (h : IsInt64 i) : (Int64.ofInt i).toInt = i := by
  obtain ⟨h1, h2⟩ := h
  exact Int64.toInt_ofInt_of_le (by omega) (by omega)

/-- **C107 (times).** A time is the microseconds since midnight of what the text stands for. -/
theorem C107_time (x : TcExt) (q : Bool) (text : Bytes) (tm : GoTime)
    (hx : x.parseTime (rawString text) = .ok tm) (hn : tm.Normal) :
    ∃ i : Int64, i.toInt = tm.nanos % 86400000000000 / 1000 ∧ visitTypedArgument x (.time q text) =
      .ok ⟨.prim .time (mark q) 0, .lit (.prim (.time i) (.prim .time (mark q) 0))⟩ := by
  obtain ⟨h1, h2⟩ := hn
  have hg : goDiv tm.nsec 1000 = tm.nsec / 1000 := Int.tdiv_eq_ediv_of_nonneg h1
  have hm : tm.sec % 86400 * 1000000 + goDiv tm.nsec 1000 = tm.nanos % 86400000000000 / 1000 := by
    rw [hg]; unfold GoTime.nanos; omega
  have hr : 0 ≤ tm.nanos % 86400000000000 / 1000 ∧ tm.nanos % 86400000000000 / 1000 < 86400000000 := by omega
  refine ⟨Int64.ofInt (tm.nanos % 86400000000000 / 1000), toInt_ofInt64 ⟨by omega, by omega⟩, ?_⟩
  simp only [visitTypedArgument, visitArgument, newTimeFromString, hx, Res.ok_bind, hm, newTimeFromMicros]
  rw [if_neg (by omega)]
  cases q <;> rfl

/-- **C107 (timestamps).** A timestamp is the microseconds since 1970 of what the text stands for. -/
theorem C107_timestamp (x : TcExt) (q : Bool) (text : Bytes) (tm : GoTime)
    (hx : x.parseTime (rawString text) = .ok tm) (hn : tm.Normal) (hr : IsInt64 (tm.nanos / 1000)) :
    ∃ i : Int64, i.toInt = tm.nanos / 1000 ∧
      visitTypedArgument x (.timestamp q text) =
        .ok ⟨.prim .timestamp (mark q) 0, .lit (.prim (.timestamp i) (.prim .timestamp (mark q) 0))⟩ ∧
      visitTypedArgument x (.timestampTz q text) =
        .ok ⟨.prim .timestampTz (mark q) 0, .lit (.prim (.timestampTz i) (.prim .timestampTz (mark q) 0))⟩ := by
  have hw : wrap64 (tm.nanos / 1000) = tm.nanos / 1000 := wrap64_id hr.1 hr.2
  refine ⟨Int64.ofInt (tm.nanos / 1000), toInt_ofInt64 hr, ?_, ?_⟩
  · simp only [visitTypedArgument, visitArgument, newTimestampFromString, hx, Res.ok_bind, unixMicro_eq tm hn, hw]
    cases q <;> rfl
  · simp only [visitTypedArgument, visitArgument, newTimestampTzFromString, hx, Res.ok_bind, unixMicro_eq tm hn, hw]
    cases q <;> rfl

/-- **C107 (years and months).** The text of an interval is read as that interval. -/
theorem C107_year_interval (x : TcExt) (q : Bool) (y m : Int32) :
    visitTypedArgument x (.intervalYear q (39 :: intervalYearIso y.toInt m.toInt ++ [39])) =
      .ok ⟨.prim .intervalYear (mark q) 0, .lit (.proto (.intervalYearToMonth y m) (.prim .intervalYear (mark q) 0))⟩ := by
  have hr : rawString (39 :: intervalYearIso y.toInt m.toInt ++ [39]) = intervalYearIso y.toInt m.toInt := by
    refine rawString_token _ ?_ ?_
    · intro b hb; simp only [intervalYearIso, List.head?_cons, Option.some.injEq] at hb; subst hb; decide
    · intro b hb
      have e : intervalYearIso y.toInt m.toInt = (80 :: (intText y.toInt ++ 89 :: intText m.toInt)) ++ [77] := by
        simp [intervalYearIso]
      rw [e, List.getLast?_append] at hb
      simp only [List.getLast?_singleton, Option.some_or, Option.some.injEq] at hb
      subst hb; decide
  have h32 : ∀ i : Int32, IsInt32 i.toInt := fun i => by
    have h1 := i.le_toInt; have h2 := i.toInt_lt
    exact ⟨by omega, by omega⟩
  simp only [visitTypedArgument, visitArgument, newIntervalYearFromString, hr,
    C53_interval_text_roundtrip _ _ (h32 y) (h32 m), Res.ok_bind, Int32.ofInt_toInt]
  cases q <;> rfl

/-- the time of a text in units of the precision, if these are whole -/
theorem getTime_exact {t : GoTime} (h : t.Normal) {p : Nat} (hp : p ≤ 9) {u : ℤ}
    (hu : t.nanos = u * 10 ^ (9 - p)) (hr : IsInt64 (u * 10 ^ (siPrecision p - p))) :
    getTimeValueByPrecision t p = .ok u := by
  rw [getTime_spec t h p hp]
  have h10 : p = 0 ∨ p = 1 ∨ p = 2 ∨ p = 3 ∨ p = 4 ∨ p = 5 ∨ p = 6 ∨ p = 7 ∨ p = 8 ∨ p = 9 := by omega
  have hU : IsInt64 u := by
    obtain ⟨a, b⟩ := hr
    rcases h10 with rfl | rfl | rfl | rfl | rfl | rfl | rfl | rfl | rfl | rfl <;>
      simp [siPrecision] at a b <;> constructor <;> omega
  congr 1
  rw [hu]
  split
  · subst p; simp
  · have hd : u * 10 ^ (9 - p) / 10 ^ (9 - siPrecision p) = u * 10 ^ (siPrecision p - p) := by
      rcases h10 with rfl | rfl | rfl | rfl | rfl | rfl | rfl | rfl | rfl | rfl <;> simp [siPrecision] <;> omega
    rw [hd]
    refine (wrapdiv_iff u _ ?_ hU).2 hr
    rcases h10 with rfl | rfl | rfl | rfl | rfl | rfl | rfl | rfl | rfl | rfl <;> simp [siPrecision]

theorem isInt64_units {u : ℤ} {p : Nat} (hp : p ≤ 9) (hr : IsInt64 (u * 10 ^ (siPrecision p - p))) : IsInt64 u := by
  have h10 : p = 0 ∨ p = 1 ∨ p = 2 ∨ p = 3 ∨ p = 4 ∨ p = 5 ∨ p = 6 ∨ p = 7 ∨ p = 8 ∨ p = 9 := by omega
  obtain ⟨a, b⟩ := hr
  rcases h10 with rfl | rfl | rfl | rfl | rfl | rfl | rfl | rfl | rfl | rfl <;>
    simp [siPrecision] at a b <;> constructor <;> omega

theorem changeTime_same {u : ℤ} {p : Nat} (hp : p ≤ 9) (hr : IsInt64 (u * 10 ^ (siPrecision p - p))) :
    changeTimePrecision u p p = .ok u := by
  obtain ⟨t, h1, h2, h3⟩ := timeFrom_spec u p (isInt64_units hp hr) hp
  unfold changeTimePrecision
  rw [h1, Res.ok_bind]
  exact getTime_exact h3 hp h2 hr

/-- **C107 (precisions), partial.** A timestamp that is a whole number `u` of units of its precision, and fits
int64 in the next SI unit, is read as the instant that the text stands for; a time of day as the time since
midnight. Missing: anything finer than the precision is dropped (`C107_negation`). -/
theorem C107_precision_partial (x : TcExt) (k : Prec) (q : Bool) (pt text : Bytes) (p : Int32) (tm tm' : GoTime)
    (u : ℤ) (hp : WritesInt pt p.toInt) (h0 : 0 ≤ p.toInt) (h9 : p.toInt ≤ 9)
    (hx : x.parseTime (rawString text) = .ok tm) (hn : tm.Normal)
    (hk : (k = .precisionTimestamp ∨ k = .precisionTimestampTz) ∧ tm' = tm ∨
      k = .precisionTime ∧ tm' = ⟨tm.sec % 86400, tm.nsec⟩)
    (hu : tm'.nanos = u * 10 ^ (9 - p.toInt.toNat))
    (hr : IsInt64 (u * 10 ^ (siPrecision p.toInt.toNat - p.toInt.toNat))) :
    ∃ l, visitTypedArgument x (.prec k q (some pt) text) = .ok ⟨.prec k (mark q) 0 p, .lit l⟩ ∧
      l.value = some (.nanos tm'.nanos) ∧ l.getType = .ok (.prec k (mark q) 0 p) := by
  have hn' : tm'.Normal := by
    rcases hk with ⟨-, rfl⟩ | ⟨-, rfl⟩
    · exact hn
    · exact hn
  have hp9 : p.toInt.toNat ≤ 9 := by omega
  have hU := isInt64_units hp9 hr
  have hg := getTime_exact hn' hp9 hu hr
  have hc := changeTime_same hp9 hr
  have ht : tcIntegerLiteral pt = .ok p := by
    unfold tcIntegerLiteral
    rw [(atoi_iff pt p.toInt).2 ⟨hp, by constructor <;> omega⟩, Res.ok_bind, Int32.ofInt_toInt]
  have hnp : ¬ p < 0 := by
    rw [Int32.lt_iff_toInt_lt]; simpa using h0
  have hi := toInt_ofInt64 hU
  have hc' : changeTimePrecision u p.toNatClampNeg p.toNatClampNeg = .ok u := hc
  refine ⟨.proto (.int64 (Int64.ofInt u)) (.prec k (mark q) 0 p), ?_, ?_, rfl⟩
  · have hnew : newPrecFromString x k p (rawString text) (Ty.isNullable (.prec k (getNullability q) 0 p)) =
        newLiteral (precLitArg k p (Int64.ofInt u)) (Ty.isNullable (.prec k (getNullability q) 0 p)) := by
      unfold newPrecFromString
      rw [hx, Res.ok_bind]
      rcases hk with ⟨rfl | rfl, rfl⟩ | ⟨rfl, rfl⟩ <;> simp only [if_neg hnp, hg, Res.ok_bind]
    simp only [visitTypedArgument, visitArgument, tcType, ht, Res.ok_bind, hnew]
    rcases hk with ⟨rfl | rfl, rfl⟩ | ⟨rfl, rfl⟩ <;> cases q <;>
      simp [precLitArg, newLiteral, CaseLit.updateType, Ty.getParameters, Lit.withType, newTimeWithType, hnp, hi, hc', Res.ok_bind,
        mark, getNullability]
  · rcases hk with ⟨rfl | rfl, rfl⟩ | ⟨rfl, rfl⟩ <;> simp only [Lit.value, hi, hu]

/-- **C107 is false of the code**: half a second is dropped from `'…00.5'::pts<0>`. -/
theorem C107_negation : ¬ C107_statement := by
  intro h
  let x : TcExt := ⟨fun _ => .ok ⟨0, 500000000⟩, fun _ => .err, fun _ => .err, fun _ => 0, fun _ => .err, fun _ => (0, 0, 0)⟩
  obtain ⟨l, h1, h2⟩ := h x .precisionTimestamp false (some [48]) [39, 39] ⟨0, 500000000⟩
    ⟨.prec .precisionTimestamp 2 0 0, .lit (.proto (.int64 0) (.prec .precisionTimestamp 2 0 0))⟩
    (Or.inl rfl) rfl ⟨by decide, by decide⟩ rfl
  cases h1
  simp [Lit.value, GoTime.nanos] at h2

/-- **C107 is false of the code** (range): a time before 1677 with nanoseconds wraps around. -/
theorem C107_negation_range : ∃ (x : TcExt) (tm : GoTime) (l : Lit), x.parseTime [] = .ok tm ∧ tm.Normal ∧
    visitTypedArgument x (.prec .precisionTimestamp false (some [57]) [39, 39]) =
      .ok ⟨.prec .precisionTimestamp 2 0 9, .lit l⟩ ∧
    tm.nanos = -10000000000000000000 ∧ l.value = some (.nanos 8446744073709551616) := by
  refine ⟨⟨fun _ => .ok ⟨-10000000000, 0⟩, fun _ => .err, fun _ => .err, fun _ => 0, fun _ => .err, fun _ => (0, 0, 0)⟩,
    ⟨-10000000000, 0⟩, .proto (.int64 8446744073709551616) (.prec .precisionTimestamp 2 0 9), rfl,
    ⟨by decide, by decide⟩, rfl, rfl, rfl⟩

theorem text_ends (p : DayParts) (h : p.Wf) : (39 : UInt8) ∉ p.text := by
  have hd : ∀ s, Digits s → (39 : UInt8) ∉ s := by
    intro s hs hm
    have := hs _ hm
    revert this; decide
  have hu : ∀ (u : UInt8) (o : Option Bytes), u ≠ 39 → (∀ s, o = some s → IsNumber s) → (39 : UInt8) ∉ unitText u o := by
    intro u o hu ho
    cases o with
    | none => simp [unitText]
    | some s =>
      have := hd s (ho s rfl).2
      simp [unitText, this, Ne.symm hu]
  have hsec : (39 : UInt8) ∉ secondsText p.seconds := by
    rcases hs : p.seconds with _ | ⟨w, _ | f⟩
    · simp [secondsText]
    · have := hd w (h.whole _ _ hs)
      simp [secondsText, this]
    · have := hd w (h.whole _ _ hs)
      have := hd f (h.frac _ _ hs).2
      simp [secondsText, *]
  have h1 := hu 68 _ (by decide) h.days
  have h2 := hu 72 _ (by decide) h.hours
  have h3 := hu 77 _ (by decide) h.minutes
  unfold DayParts.text
  split <;> simp [h1, h2, h3, hsec]

theorem rawString_day (d : DayParts) (h : d.Wf) : rawString (39 :: d.text ++ [39]) = d.text :=
  rawString_token _ (fun b hb e => text_ends d h (e ▸ List.mem_of_mem_head? hb))
    (fun b hb e => text_ends d h (e ▸ List.mem_of_mem_getLast? hb))

/-- the literal that whole days and seconds are read as -/
theorem visitDay_whole (x : TcExt) (q : Bool) (pt : Bytes) (p : Int32) (d : DayParts)
    (hp : WritesInt pt p.toInt) (hw : d.Wf) (hs : d.Some) (hf : d.frac = 0)
    (hd : decimalOpt d.days < 2 ^ 31) (hsec : d.wholeSeconds < 2 ^ 31) :
    visitTypedArgument x (.intervalDay q (some pt) (39 :: d.text ++ [39])) =
      .ok ⟨.prec .intervalDay (mark q) 0 p, .lit (.proto (.intervalDayToSecond
        ⟨Int32.ofInt (decimalOpt d.days), Int32.ofInt d.wholeSeconds, .precision p, 0⟩)
        (.prec .intervalDay (mark q) 0 p))⟩ := by
  have hq := C96_whole_partial x.big d hw hs hf hd hsec
  have ht : tcIntegerLiteral pt = .ok p := by
    unfold tcIntegerLiteral
    have h1 := p.le_toInt; have h2 := p.toInt_lt
    rw [(atoi_iff pt p.toInt).2 ⟨hp, by constructor <;> omega⟩, Res.ok_bind, Int32.ofInt_toInt]
  have e1 : (Int32.ofInt (decimalOpt d.days)).toInt = decimalOpt d.days := toInt_ofInt_small ⟨by omega, by omega⟩
  have e2 : (Int32.ofInt d.wholeSeconds).toInt = d.wholeSeconds := toInt_ofInt_small ⟨by omega, by omega⟩
  simp only [visitTypedArgument, visitArgument, tcType, ht, Res.ok_bind, newIntervalDayFromString, rawString_day d hw,
    hq, newLiteral]
  have hz : ∀ n : Nat, intervalDayWithPrecision ⟨decimalOpt d.days, d.wholeSeconds, 0, 6⟩ n =
      ⟨decimalOpt d.days, d.wholeSeconds, 0, n⟩ := by
    intro n
    simp only [intervalDayWithPrecision, IntervalDay.mk.injEq, true_and, and_true]
    split
    · split
      · simp [goDiv]
      · rw [Int.zero_mul]; rfl
    · rfl
  have h6 : (Int32.ofNat 6).toInt.toNat = 6 := by decide
  have h00 : (Int64.ofInt 0).toInt = 0 := by decide
  simp only [CaseLit.updateType, Ty.getParameters, List.length_singleton, Nat.one_ne_zero, if_false, Lit.withType,
    newIntervalDayWithType, e1, e2, DaySecond.getPrecision, h6, h00, hz, Res.ok_bind]
  cases q <;> rfl

/-- **C107 (days and seconds), partial.** The text of a number of days, hours, minutes and whole seconds is read as
these days and seconds, whatever the precision. Missing: fractions (`C107_day_fraction_partial`). -/
theorem C107_day_interval_partial (x : TcExt) (q : Bool) (pt : Bytes) (p : Int32) (d : DayParts)
    (hp : WritesInt pt p.toInt) (hw : d.Wf) (hs : d.Some) (hf : d.frac = 0)
    (hd : decimalOpt d.days < 2 ^ 31) (hsec : d.wholeSeconds < 2 ^ 31) :
    ∃ l, visitTypedArgument x (.intervalDay q (some pt) (39 :: d.text ++ [39])) =
        .ok ⟨.prec .intervalDay (mark q) 0 p, .lit l⟩ ∧
      l.value = some (.interval (decimalOpt d.days) d.wholeSeconds 0) ∧
      l.getType = .ok (.prec .intervalDay (mark q) 0 p) := by
  have e1 : (Int32.ofInt (decimalOpt d.days)).toInt = decimalOpt d.days := toInt_ofInt_small ⟨by omega, by omega⟩
  have e2 : (Int32.ofInt d.wholeSeconds).toInt = d.wholeSeconds := toInt_ofInt_small ⟨by omega, by omega⟩
  refine ⟨_, visitDay_whole x q pt p d hp hw hs hf hd hsec, ?_, rfl⟩
  simp only [Lit.value, e1, e2, DaySecond.nanos]
  simp

/-- **C107 (fractions of a second), partial.** With precision 9, at most nine digits of a second and less than 2^24 in the
seconds part, the part of a second is exact or one nanosecond less. Missing: that it is exact
(`C96_negation`), and other precisions, which cut it off. -/
theorem C107_day_fraction_partial (x : TcExt) (q : Bool) (pt : Bytes) (d : DayParts)
    (hp : WritesInt pt 9) (hw : d.Wf) (hs : d.Some) (hf : d.fracDigits.length ≤ 9)
    (hd : decimalOpt d.days < 2 ^ 31) (hsec : d.wholeSeconds < 2 ^ 31) (h24 : d.whole < 2 ^ 24) :
    ∃ l n, visitTypedArgument x (.intervalDay q (some pt) (39 :: d.text ++ [39])) =
        .ok ⟨.prec .intervalDay (mark q) 0 9, .lit l⟩ ∧
      l.value = some (.interval (decimalOpt d.days) d.wholeSeconds n) ∧
      ((n : ℚ) = d.frac * 1000000000 ∨ (n : ℚ) = d.frac * 1000000000 - 1) ∧
      l.getType = .ok (.prec .intervalDay (mark q) 0 9) := by
  obtain ⟨v, hv, hd', hs', hpr, hn0, hn⟩ := C96_fraction_partial x.big d hw hs hf hd hsec h24
  have hlt : v.fracNanos < 1000000000 := by
    have hl := frac_lt hw
    have : (v.fracNanos : ℚ) < 1000000000 := by rcases hn with hn | hn <;> rw [hn] <;> linarith
    exact_mod_cast this
  have ht : tcIntegerLiteral pt = .ok 9 := by
    unfold tcIntegerLiteral
    rw [(atoi_iff pt 9).2 ⟨hp, by constructor <;> omega⟩]
    rfl
  have e1 : (Int32.ofInt v.days).toInt = v.days := toInt_ofInt_small ⟨by omega, by omega⟩
  have e2 : (Int32.ofInt v.seconds).toInt = v.seconds := toInt_ofInt_small ⟨by omega, by omega⟩
  have e3 : (Int64.ofInt v.subseconds).toInt = v.subseconds := by
    refine toInt_ofInt64 ?_
    unfold IntervalDay.fracNanos at hn0 hlt
    rcases hpr with hpr | hpr <;> rw [hpr] at hn0 hlt <;> simp at hn0 hlt <;> constructor <;> omega
  have e4 : (Int64.ofInt v.fracNanos).toInt = v.fracNanos := toInt_ofInt64 ⟨by omega, by omega⟩
  refine ⟨.proto (.intervalDayToSecond ⟨Int32.ofInt v.days, Int32.ofInt v.seconds, .precision 9,
    Int64.ofInt v.fracNanos⟩) (.prec .intervalDay (mark q) 0 9), v.fracNanos, ?_, ?_, hn, rfl⟩
  · simp only [visitTypedArgument, visitArgument, tcType, ht, Res.ok_bind, newIntervalDayFromString, rawString_day d hw,
      hv, newLiteral]
    have hz : intervalDayWithPrecision ⟨v.days, v.seconds, v.subseconds, v.precision⟩ 9 =
        ⟨v.days, v.seconds, v.fracNanos, 9⟩ := by
      unfold IntervalDay.fracNanos at hn0 hlt ⊢
      simp only [intervalDayWithPrecision, IntervalDay.mk.injEq, true_and, and_true]
      rcases hpr with hpr | hpr <;> rw [hpr] at hn0 hlt ⊢ <;> simp at hn0 hlt ⊢
      exact wrap64_id (by omega) (by omega)
    have h6 : (Int32.ofNat v.precision).toInt.toNat = v.precision := by
      rcases hpr with hpr | hpr <;> rw [hpr] <;> decide
    have h9 : (9 : Int32).toInt.toNat = 9 := by decide
    simp only [CaseLit.updateType, Ty.getParameters, List.length_singleton, Nat.one_ne_zero, if_false, Lit.withType,
      newIntervalDayWithType, e1, e2, e3, DaySecond.getPrecision, h6, h9, hz, Res.ok_bind]
    cases q <;> rfl
  · have h9 : 9 - (9 : Int32).toInt.toNat = 0 := by decide
    rw [hd'] at e1
    rw [hs'] at e2
    simp only [Lit.value, hd', hs', e1, e2, DaySecond.nanos, e4, h9, pow_zero, mul_one]

/-- **C107 (texts with a length).** Characters and bytes are those between the quotes. -/
theorem C107_fixed (x : TcExt) (k : Fixed) (q : Bool) (len text : Bytes) (c : CaseLit)
    (h : visitTypedArgument x (.fixed k q len text) = .ok c) :
    ∃ l, c.value = .lit l ∧
      l.value = some (if k = .fixedBinary then .octets (rawString text) else .chars (rawString text)) := by
  unfold visitTypedArgument at h
  simp only [visitArgument, Res.bind_eq_ok] at h
  obtain ⟨c', ⟨t, ht, h1⟩, h2⟩ := h
  simp only [tcType, Res.bind_eq_ok] at ht
  obtain ⟨n, -, ht⟩ := ht
  cases ht
  cases k
  all_goals
    simp only [newVarCharLiteral, newLiteral, newPrimLiteral, Res.ok_bind, Res.ok.injEq] at h1
    subst h1
    simp [CaseLit.updateType, Ty.getParameters, Res.bind_eq_ok, Lit.withType] at h2
  · subst h2; exact ⟨_, rfl, rfl⟩
  · obtain ⟨l, h3, h4⟩ := h2
    simp only [newVarCharWithType] at h3
    split at h3
    · cases h3
    · cases h3; cases h4; exact ⟨_, rfl, rfl⟩
  · subst h2; exact ⟨_, rfl, rfl⟩

/-- A parser of times that reads every text as one and a half seconds before 1970 -/
def exExt : TcExt := ⟨fun _ => .ok ⟨-2, 500000000⟩, fun _ => .ok ⟨-86400, 0⟩, fun _ => .ok 1, fun _ => 0,
  fun _ => .err, fun _ => (0, 0, 0)⟩

/-- non-vacuity: 1.5 seconds before 1970, as a timestamp, as one of precision 1, and as a time of day -/
example : exExt.parseTime (rawString [39, 39]) = .ok ⟨-2, 500000000⟩ ∧ (⟨-2, 500000000⟩ : GoTime).Normal ∧
    IsInt64 ((⟨-2, 500000000⟩ : GoTime).nanos / 1000) ∧
    (⟨-2, 500000000⟩ : GoTime).nanos = -15 * 10 ^ (9 - (1 : Int32).toInt.toNat) ∧
    (⟨86398, 500000000⟩ : GoTime).nanos = 863985 * 10 ^ (9 - (1 : Int32).toInt.toNat) ∧
    IsInt64 (-15 * 10 ^ (siPrecision (1 : Int32).toInt.toNat - (1 : Int32).toInt.toNat)) ∧
    WritesInt [49] (1 : Int32).toInt :=
  ⟨rfl, ⟨by decide, by decide⟩, ⟨by decide, by decide⟩, by decide, by decide, ⟨by decide, by decide⟩,
    ⟨[49], ⟨by simp, by unfold Digits; decide⟩, .inl ⟨.inl rfl, by decide⟩⟩⟩

/-- non-vacuity: 1969-12-31 is day -1, and 5e-324 is a float -/
example : exExt.parseDate (rawString [39, 39]) = .ok ⟨-1 * 86400, 0⟩ ∧ IsInt32 (-1) ∧ exExt.parseFloat [] = .ok 1 :=
  ⟨rfl, ⟨by decide, by decide⟩, rfl⟩

/-- non-vacuity: `'P1DT2H3M4.0S'::iday<3>`, `'PT6.789S'::iday<9>` -/
example (x : TcExt) :
    (∃ l, visitTypedArgument x (.intervalDay true (some [51]) (39 :: allParts.text ++ [39])) =
        .ok ⟨.prec .intervalDay (mark true) 0 3, .lit l⟩ ∧ l.value = some (.interval 1 7384 0)) ∧
    ∃ c, visitTypedArgument x (.intervalDay false (some [57]) (39 :: secondsOnly.text ++ [39])) = .ok c := by
  constructor
  · obtain ⟨l, h1, h2, -⟩ := C107_day_interval_partial x true [51] 3 allParts
      ⟨[51], ⟨by simp, by unfold Digits; decide⟩, .inl ⟨.inl rfl, by decide⟩⟩
      (DayParts.wf_of (by decide)) (Or.inl (by simp [allParts]))
      (by simp [DayParts.frac, DayParts.fracDigits, allParts, decimal]) (by decide) (by decide)
    exact ⟨l, h1, h2⟩
  · obtain ⟨l, n, h1, -⟩ := C107_day_fraction_partial x false [57] secondsOnly
      ⟨[57], ⟨by simp, by unfold Digits; decide⟩, .inl ⟨.inl rfl, by decide⟩⟩
      (DayParts.wf_of (by decide)) (Or.inr (Or.inr (Or.inr (by simp [secondsOnly])))) (by decide) (by decide)
      (by decide) (by decide)
    exact ⟨_, h1⟩

/-- non-vacuity: `'ab'::fchar<2>` -/
example (x : TcExt) : ∃ c, visitTypedArgument x (.fixed .fixedChar false [50] [39, 97, 98, 39]) = .ok c := ⟨_, rfl⟩

/-- **C106 (expected results).** The expected result of an accepted test case is the one written: a value read like an
argument, or an error, or undefined. -/
theorem C106_results (x : TcExt) (uri desc : String) (k : TestFuncType) (c : TcCase) (tc : TestCase)
    (h : visitTestCase x uri desc k c = .ok tc) :
    (∀ a, c.result = .value a → ∃ v, visitTypedArgument x a = .ok v ∧ tc.result = .value v) ∧
    (c.result = .error → tc.result = .error) ∧ (c.result = .undefined → tc.result = .undefined) := by
  obtain ⟨p, r, hp, hr, rfl⟩ := visitTestCase_ok.1 h
  refine ⟨?_, ?_, ?_⟩
  · intro a ha
    rw [ha] at hr
    simp only [visitResult, Res.bind_eq_ok, Res.ok.injEq] at hr
    obtain ⟨v, hv, rfl⟩ := hr
    exact ⟨v, hv, rfl⟩
  · intro ha; rw [ha] at hr; cases hr; rfl
  · intro ha; rw [ha] at hr; cases hr; rfl

/-- **C106 (arguments).** The arguments of a call of a scalar function are those written, one by one and in order. -/
theorem C106_arguments (x : TcExt) (uri desc : String) (k : TestFuncType) (c : TcCase) (tc : TestCase)
    (name : String) (args : List TcArg) (hc : c.call = .scalar name args)
    (h : visitTestCase x uri desc k c = .ok tc) :
    tc.funcName = name ∧ List.Forall₂ (fun a v => visitTypedArgument x a = .ok v) args tc.args := by
  obtain ⟨p, r, hp, hr, rfl⟩ := visitTestCase_ok.1 h
  rw [hc] at hp
  simp only [visitCall, Res.bind_eq_ok, Res.ok.injEq] at hp
  obtain ⟨vs, hvs, rfl⟩ := hp
  exact ⟨rfl, mapL_forall₂.1 hvs⟩

/-- non-vacuity: `f(true::bool) = false::bool` -/
example (x : TcExt) : ∃ tc, visitTestCase x "u" "d" .scalar
    ⟨.scalar "f" [.bool false true], none, .value (.bool false false)⟩ = .ok tc ∧ tc.args.length = 1 := ⟨_, rfl, rfl⟩

end Verif
