import Verif.Lemmas.LitCons
import Verif.Props.Literals
import Verif.Props.Time
/-!
# Property C117: the constructors of package `literal`
-/

namespace Verif

/-- **C117 (full statement, false).** A constructor returns the literal asked for when there is one,
and an error otherwise. -/
def C117_statement : Prop :=
  ∀ (c : LitCall) (nullable : Bool),
    (c.Representable → ∃ l, c.run nullable = .ok l ∧ c.Made nullable l) ∧
    (¬ c.Representable → c.run nullable = .err)

/-- Times whose literals are right: times of day are taken from a time in UTC, and timestamps of a
precision other than seconds, milli-, micro- and nanoseconds are not before 1970. -/
def LitCall.Plain : LitCall → Prop
  | .precisionTimeFromTime _ tm => tm.offset = 0
  | .precisionTimestampFromTime p tm | .precisionTimestampTzFromTime p tm =>
      0 ≤ tm.instant.nanos ∨ p.toInt = 0 ∨ p.toInt = 3 ∨ p.toInt = 6 ∨ p.toInt = 9
  | _ => True

/-- **C117 (partial).** When what was asked for can be said with a literal of the constructor's type,
the constructor returns that literal: its type has the length, precision, scale and nullability that
belong to it, and the message written for it holds the very number or bytes that were given. Times
given as `time.Time` are counted in whole units. Missing (`LitCall.Plain`): times of day from a time
that is not in UTC, and timestamps before 1970 with precisions other than 0, 3, 6 and 9, where the
code is wrong (`C117_negation_zone`, `C117_negation_before_1970`). -/
theorem C117_made_partial (c : LitCall) (nullable : Bool) (hr : c.Representable) (hp : c.Plain) :
    ∃ l, c.run nullable = .ok l ∧ c.Made nullable l := by
  cases c with
  | int8 v => exact ⟨_, rfl, made_of rfl rfl rfl rfl rfl (Int8.toInt_toInt32 v)⟩
  | int16 v => exact ⟨_, rfl, made_of rfl rfl rfl rfl rfl (Int16.toInt_toInt32 v)⟩
  | date d =>
    refine ⟨_, rfl, made_of rfl rfl rfl rfl rfl ?_⟩
    obtain ⟨h1, h2⟩ := hr
    show (dateOfInt d).toInt = d.toInt
    rw [dateOfInt, Int64.toInt_toInt32, Int.bmod_eq_of_le (by omega) (by omega)]
  | time h m s us =>
    have e := (C10_newTime_partial h.toInt m.toInt s.toInt us.toInt).1 hr
    have er : LitCall.run (.time h m s us) nullable =
        .ok (.prim (.time (Int64.ofInt (micros h.toInt m.toInt s.toInt us.toInt)))
          (.prim .time (getNullability nullable) 0)) := by
      simp only [LitCall.run, e, Res.ok_bind, newLiteral, newPrimLiteral]
    refine ⟨_, er, made_of rfl rfl rfl rfl rfl ?_⟩
    obtain ⟨h1, h2⟩ := hr
    exact ofInt64_exact ⟨by omega, by omega⟩
  | timeFromMicros us =>
    have e := (C10_newTimeFromMicros us.toInt).1 hr
    have er : LitCall.run (.timeFromMicros us) nullable =
        .ok (.prim (.time (Int64.ofInt us.toInt)) (.prim .time (getNullability nullable) 0)) := by
      simp only [LitCall.run, e, Res.ok_bind, newLiteral, newPrimLiteral]
    refine ⟨_, er, made_of rfl rfl rfl rfl rfl ?_⟩
    exact (Int64.ofInt_toInt us).symm
  | timestamp tm => exact ⟨_, rfl, made_of rfl rfl rfl rfl rfl (micros_of_time tm hr)⟩
  | timestampTz tm => exact ⟨_, rfl, made_of rfl rfl rfl rfl rfl (micros_of_time tm hr)⟩
  | intervalYearsToMonth y m => exact ⟨_, rfl, made_of rfl rfl rfl rfl rfl ⟨rfl, rfl⟩⟩
  | intervalDaysToSecond d s us =>
    exact ⟨_, rfl, made_of rfl rfl rfl rfl rfl ⟨rfl, rfl, rfl, rfl⟩⟩
  | fixedChar s => exact ⟨_, rfl, made_of rfl rfl rfl rfl ⟨_, rfl, int32Len_toInt s hr⟩ rfl⟩
  | fixedBinary s => exact ⟨_, rfl, made_of rfl rfl rfl rfl ⟨_, rfl, int32Len_toInt s hr⟩ rfl⟩
  | varChar s =>
    exact ⟨_, rfl, made_of rfl rfl rfl rfl ⟨_, rfl, (uint32Len s hr).1⟩ ⟨rfl, (uint32Len s hr).2⟩⟩
  | decimal b p s =>
    obtain ⟨h1, h2, h3, h4, h5, -⟩ := hr
    have e : newDecimalFromTwosComplement b p s nullable =
        .ok (.proto (.bytes b) (.decimal (getNullability nullable) 0 s p)) := by
      unfold newDecimalFromTwosComplement
      simp only [Int32.lt_iff_toInt_lt, GT.gt, Int32.reduceToInt, newLiteral]
      rw [if_neg (by omega), if_neg (by omega), if_neg (by omega), if_neg (by omega)]
    exact ⟨_, e, made_of rfl rfl rfl rfl rfl ⟨rfl, rfl, rfl⟩⟩
  | precisionTime p v => exact ⟨_, rfl, made_of rfl rfl rfl rfl rfl ⟨rfl, rfl⟩⟩
  | precisionTimestamp p v => exact ⟨_, rfl, made_of rfl rfl rfl rfl rfl ⟨rfl, rfl⟩⟩
  | precisionTimestampTz p v => exact ⟨_, rfl, made_of rfl rfl rfl rfl rfl ⟨rfl, rfl⟩⟩
  | precisionTimeFromTime p tm =>
    obtain ⟨hv, hn⟩ := hr
    obtain ⟨g1, g2, g3, g4⟩ := nanos_of_clock tm hn
    obtain ⟨v, e, h1, -⟩ := timeValue_spec _ p hv g1 g2 (Or.inl g3)
    have er : LitCall.run (.precisionTimeFromTime p tm) nullable =
        .ok (.proto (.int64 v) (.prec .precisionTime (getNullability nullable) 0 p)) := by
      simp only [LitCall.run, e, Res.ok_bind, newLiteral]
    refine ⟨_, er, made_of rfl rfl rfl rfl rfl ⟨rfl, ?_⟩⟩
    rw [← g4 hp]; exact h1
  | precisionTimestampFromTime p tm =>
    obtain ⟨hv, hn⟩ := hr
    obtain ⟨v, e, h1, -⟩ := timeValue_spec _ p hv hn.1.1 hn.2 hp
    have er : LitCall.run (.precisionTimestampFromTime p tm) nullable =
        .ok (.proto (.int64 v) (.prec .precisionTimestamp (getNullability nullable) 0 p)) := by
      simp only [LitCall.run, e, Res.ok_bind, newLiteral]
    exact ⟨_, er, made_of rfl rfl rfl rfl rfl ⟨rfl, h1⟩⟩
  | precisionTimestampTzFromTime p tm =>
    obtain ⟨hv, hn⟩ := hr
    obtain ⟨v, e, h1, -⟩ := timeValue_spec _ p hv hn.1.1 hn.2 hp
    have er : LitCall.run (.precisionTimestampTzFromTime p tm) nullable =
        .ok (.proto (.int64 v) (.prec .precisionTimestampTz (getNullability nullable) 0 p)) := by
      simp only [LitCall.run, e, Res.ok_bind, newLiteral]
    exact ⟨_, er, made_of rfl rfl rfl rfl rfl ⟨rfl, h1⟩⟩
  | userDefined r fs ps =>
    obtain ⟨⟨ms, e1⟩, hpr, qs, e2, hc⟩ := hr
    obtain ⟨ps', e3, e4, e5⟩ := params_from_to ps qs hpr e2
    have e6 := params_to_from qs ps' hc e3
    have e7 := params_again _ _ e3
    have er : LitCall.run (.userDefined r fs ps) nullable =
        .ok (.proto (.udt (.struct ms)) (.udt (getNullability nullable) 0 r ps')) := by
      simp only [LitCall.run, newUserDefinedLiteral, e1, e2, e3, Res.ok_bind, newLiteral]
    have ew : literalToProto (.proto (.udt (.struct ms)) (.udt (getNullability nullable) 0 r ps')) =
        .ok (litHeader (.udt (getNullability nullable) 0 r ps')
          (.userDefined r (PParam.normaliseList qs) (.struct ms))) := by
      simp only [literalToProto, protoLitKind, e6, Res.ok_bind]
    exact ⟨_, er, made_of rfl ew rfl rfl ⟨_, rfl, by rw [e4, e5]⟩ ⟨rfl, e1, ps', e7, by rw [e4, e5]⟩⟩
  | _ => exact ⟨_, rfl, made_of rfl rfl rfl rfl rfl rfl⟩

/-- A user-defined literal with two fields and a parameter, a decimal, a time of day from a
`time.Time` and a fixed_char meet the hypotheses. -/
example :
    (LitCall.userDefined 7 [.prim (.int8 3) (.prim .i8 2 0), .null (.prim .string 1 0)]
      [.integer 5, .dataType (.list 2 0 (.prim .i32 1 0))]).Representable ∧
    (LitCall.decimal (135 :: List.replicate 15 0) 3 2).Representable ∧
    (LitCall.precisionTimeFromTime 4 ⟨⟨-1, 999999999⟩, 0⟩).Representable ∧
    (LitCall.precisionTimeFromTime 4 ⟨⟨-1, 999999999⟩, 0⟩).Plain ∧
    (LitCall.precisionTimeFromTime 4 ⟨⟨-1, 999999999⟩, 0⟩).run true =
      .ok (.proto (.int64 863999999) (.prec .precisionTime 1 0 4)) ∧
    (LitCall.fixedChar [97, 98]).Representable ∧
    (LitCall.fixedChar [97, 98]).run false = .ok (.prim (.fixedChar [97, 98]) (.fixed .fixedChar 2 0 2)) := by
  refine ⟨⟨⟨_, rfl⟩, ⟨trivial, trivial, trivial⟩, _, rfl, ?_⟩, ?_, ?_, rfl, rfl, ?_, rfl⟩
  · simp [PParam.NoCompoundList, PParam.NoCompound, PTy.NoCompound]
  · simp [LitCall.Representable, signed16, leValue]
  · simp [LitCall.Representable, ValidPrecision, ZonedTime.Normal, GoTime.Normal, IsInt64]
  · simp [LitCall.Representable]

/-- **C117 (refusals, partial).** Times of day outside a day and decimals of the wrong shape are
refused. Missing: hours so many that the duration overflows (`C10_negation`), decimals with more
digits than their precision, and everything else that no constructor refuses (`C117_negation` and
those after it). -/
theorem C117_refused_partial (c : LitCall) (nullable : Bool)
    (h : match c with
      | .time h m s us =>
          IsInt64 (micros h.toInt m.toInt s.toInt us.toInt * 1000) ∧ ¬ c.Representable
      | .timeFromMicros _ => ¬ c.Representable
      | .decimal b p s =>
          ¬ (b.length = 16 ∧ 1 ≤ p.toInt ∧ p.toInt ≤ 38 ∧ 0 ≤ s.toInt ∧ s.toInt ≤ p.toInt)
      | _ => False) :
    c.run nullable = .err := by
  cases c with
  | time h' m s us =>
    have e := (C10_newTime_partial h'.toInt m.toInt s.toInt us.toInt).2 h.2 h.1
    simp only [LitCall.run, e, Res.err_bind]
  | timeFromMicros us =>
    have e := (C10_newTimeFromMicros us.toInt).2 h
    simp only [LitCall.run, e, Res.err_bind]
  | decimal b p s =>
    simp only [LitCall.run, newDecimalFromTwosComplement, newLiteral, Int32.lt_iff_toInt_lt, GT.gt,
      Int32.reduceToInt]
    split
    · rfl
    · split
      · rfl
      · split
        · rfl
        · exact absurd h (by omega)
  | _ => exact h.elim

example : ¬ (LitCall.timeFromMicros 86400000000).Representable ∧
    ¬ (LitCall.time 23 59 60 0).Representable ∧ IsInt64 (micros 23 59 60 0 * 1000) ∧
    (LitCall.decimal (List.replicate 16 0) 3 4).run true = .err := by
  simp [LitCall.Representable, micros, IsInt64]
  rfl

/-- The literals that are read back: year-month intervals and timestamps before 1970 are not
(`C12_negation`, `C12_negation_interval_year`). -/
def LitCall.Kept : LitCall → Prop
  | .intervalYearsToMonth .. => False
  | .precisionTimestamp _ v | .precisionTimestampTz _ v => 0 ≤ v.toInt
  | .precisionTimestampFromTime _ tm | .precisionTimestampTzFromTime _ tm => 0 ≤ tm.instant.nanos
  | _ => True

/-- **C117 (sent and received, partial).** The literal a constructor returns is read back from its
message as the same literal. Missing: year-month intervals and timestamps before 1970, see C12. -/
theorem C117_roundtrip_partial (c : LitCall) (nullable : Bool) (hr : c.Representable) (hk : c.Kept) :
    ∃ l m l', c.run nullable = .ok l ∧ literalToProto l = .ok m ∧ literalFromProto m = .ok l' ∧
      l.Same l' := by
  have fin : ∀ l, c.run nullable = .ok l → (∃ m, literalToProto l = .ok m) → l.Faithful →
      ∃ l m l', c.run nullable = .ok l ∧ literalToProto l = .ok m ∧ literalFromProto m = .ok l' ∧
        l.Same l' := by
    rintro l h1 ⟨m, h2⟩ h3
    obtain ⟨l', h4, h5⟩ := C12_literal_roundtrip_partial l m h3 h2
    exact ⟨l, m, l', h1, h2, h4, h5⟩
  have hs : Stated (getNullability nullable) := by cases nullable <;> simp [getNullability, Stated]
  have hpl : ∀ k v p, k ≠ Prec.intervalDay → ValidPrecision p → (0 : Int) ≤ Int64.toInt v →
      (Lit.proto (.int64 v) (.prec k (getNullability nullable) 0 p)).Faithful :=
    fun k v p h1 h2 h3 => ⟨h1, hs, h2, rfl, h3⟩
  cases c with
  | intervalYearsToMonth y m => exact hk.elim
  | userDefined r fs ps =>
    obtain ⟨l, h1, -, k, h2, -⟩ := C117_made_partial _ nullable hr trivial
    refine fin l h1 ⟨_, h2⟩ ?_
    obtain ⟨⟨ms, e1⟩, hpr, qs, e2, hc⟩ := hr
    obtain ⟨ps', e3, e4, e5⟩ := params_from_to ps qs hpr e2
    simp only [LitCall.run, newUserDefinedLiteral, e1, e2, Res.ok_bind] at h1
    exact C12_newLiteral_faithful_partial (.userDefined r qs (.struct ms)) nullable l
      ⟨ps', e3, (precisionsOk_eraseParams ps').1 (by rw [e4]; exact hpr)⟩ h1
  | precisionTimeFromTime p tm =>
    obtain ⟨hv, hn⟩ := hr
    obtain ⟨g1, g2, g3, -⟩ := nanos_of_clock tm hn
    obtain ⟨v, e, -, h1⟩ := timeValue_spec _ p hv g1 g2 (Or.inl g3)
    refine fin (.proto (.int64 v) (.prec .precisionTime (getNullability nullable) 0 p)) ?_ ⟨_, rfl⟩
      (hpl _ _ _ (by decide) hv (h1 g3))
    simp only [LitCall.run, e, Res.ok_bind, newLiteral]
  | precisionTimestampFromTime p tm =>
    obtain ⟨hv, hn⟩ := hr
    obtain ⟨v, e, -, h1⟩ := timeValue_spec _ p hv hn.1.1 hn.2 (Or.inl hk)
    refine fin (.proto (.int64 v) (.prec .precisionTimestamp (getNullability nullable) 0 p)) ?_
      ⟨_, rfl⟩ (hpl _ _ _ (by decide) hv (h1 hk))
    simp only [LitCall.run, e, Res.ok_bind, newLiteral]
  | precisionTimestampTzFromTime p tm =>
    obtain ⟨hv, hn⟩ := hr
    obtain ⟨v, e, -, h1⟩ := timeValue_spec _ p hv hn.1.1 hn.2 (Or.inl hk)
    refine fin (.proto (.int64 v) (.prec .precisionTimestampTz (getNullability nullable) 0 p)) ?_
      ⟨_, rfl⟩ (hpl _ _ _ (by decide) hv (h1 hk))
    simp only [LitCall.run, e, Res.ok_bind, newLiteral]
  | precisionTime p v => exact fin _ rfl ⟨_, rfl⟩ (hpl _ _ _ (by decide) hr.1 hr.2.1)
  | precisionTimestamp p v => exact fin _ rfl ⟨_, rfl⟩ (hpl _ _ _ (by decide) hr hk)
  | precisionTimestampTz p v => exact fin _ rfl ⟨_, rfl⟩ (hpl _ _ _ (by decide) hr hk)
  | fixedChar s => exact fin _ rfl ⟨_, rfl⟩ (C12_newLiteral_faithful_partial (.prim (.fixedChar s)) nullable _ hr rfl)
  | fixedBinary s => exact fin _ rfl ⟨_, rfl⟩ (C12_newLiteral_faithful_partial (.bytes .fixedBinary s) nullable _ hr rfl)
  | intervalDaysToSecond d s us =>
    exact fin _ rfl ⟨_, rfl⟩ (C12_newLiteral_faithful_partial
      (.intervalDayToSecond ⟨d, s, .precision 6, us⟩) nullable _ ⟨6, rfl, by decide, by decide⟩ rfl)
  | decimal b p s =>
    obtain ⟨l, h1, -, k, h2, -⟩ := C117_made_partial _ nullable hr trivial
    refine fin l h1 ⟨_, h2⟩ ?_
    simp only [LitCall.run, newDecimalFromTwosComplement] at h1
    split at h1
    · cases h1
    · split at h1
      · cases h1
      · split at h1
        · cases h1
        · exact C12_newLiteral_faithful_partial _ nullable l trivial h1
  | time h m s us =>
    obtain ⟨l, h1, -, k, h2, -⟩ := C117_made_partial _ nullable hr trivial
    refine fin l h1 ⟨_, h2⟩ ?_
    simp only [LitCall.run, Res.bind_eq_ok] at h1
    obtain ⟨v, -, h1⟩ := h1
    exact C12_newLiteral_faithful_partial _ nullable l trivial h1
  | timeFromMicros us =>
    obtain ⟨l, h1, -, k, h2, -⟩ := C117_made_partial _ nullable hr trivial
    refine fin l h1 ⟨_, h2⟩ ?_
    simp only [LitCall.run, Res.bind_eq_ok] at h1
    obtain ⟨v, -, h1⟩ := h1
    exact C12_newLiteral_faithful_partial _ nullable l trivial h1
  | _ => exact fin _ rfl ⟨_, rfl⟩ hs

/-! ## Where the statement fails -/

/-- **C117 is false of the code**: day 4294967296 is not refused, it becomes 1970-01-01. -/
theorem C117_negation_date : ¬ (LitCall.date 4294967296).Representable ∧
    (LitCall.date 4294967296).run false = (LitCall.date 0).run false := by
  refine ⟨?_, rfl⟩
  simp [LitCall.Representable, IsInt32]

theorem C117_negation : ¬ C117_statement := by
  intro h
  have := (h (.date 4294967296) false).2 C117_negation_date.1
  cases this

/-- A UUID of three bytes is accepted. -/
theorem C117_negation_uuid : ¬ (LitCall.uuidFromBytes [1, 2, 3]).Representable ∧
    ∃ l, (LitCall.uuidFromBytes [1, 2, 3]).run true = .ok l := by
  refine ⟨?_, _, rfl⟩
  simp [LitCall.Representable]

/-- The decimal 255 is accepted as a decimal of one digit. -/
theorem C117_negation_decimal :
    ¬ (LitCall.decimal (255 :: List.replicate 15 0) 1 0).Representable ∧
    ∃ l, (LitCall.decimal (255 :: List.replicate 15 0) 1 0).run false = .ok l := by
  refine ⟨?_, _, rfl⟩
  simp [LitCall.Representable, signed16, leValue]

/-- A precision of 12 digits is accepted; the message then written is read as no literal at all. -/
theorem C117_negation_precision : ¬ (LitCall.precisionTimestamp 12 0).Representable ∧
    ∃ l m, (LitCall.precisionTimestamp 12 0).run false = .ok l ∧ literalToProto l = .ok m ∧
      literalFromProto m = .ok .nil := by
  refine ⟨?_, _, _, rfl, rfl, rfl⟩
  simp [LitCall.Representable, ValidPrecision]

/-- 24 hours are accepted as a time of day with a precision, though not as one without. -/
theorem C117_negation_day : ¬ (LitCall.precisionTime 6 86400000000).Representable ∧
    (∃ l, (LitCall.precisionTime 6 86400000000).run false = .ok l) ∧
    (LitCall.timeFromMicros 86400000000).run false = .err := by
  refine ⟨?_, ⟨_, rfl⟩, rfl⟩
  simp [LitCall.Representable]

/-- A time of day taken from a time with a zone is that of UTC: half past midnight in a zone two hours
ahead of UTC becomes half past ten in the evening. `NewTimeFromString` makes half past midnight of
the same time. -/
theorem C117_negation_zone : let tm : ZonedTime := ⟨⟨-5400, 0⟩, 7200⟩
    (LitCall.precisionTimeFromTime 0 tm).Representable ∧
    tm.clock = 1800 * 1000000000 ∧
    (LitCall.precisionTimeFromTime 0 tm).run false =
      .ok (.proto (.int64 81000) (.prec .precisionTime 2 0 0)) ∧
    timeOfParsed tm false = .ok (.prim (.time 1800000000) (.prim .time 2 0)) := by
  refine ⟨?_, by decide, rfl, rfl⟩
  simp [LitCall.Representable, ValidPrecision, ZonedTime.Normal, GoTime.Normal, IsInt64]

/-- A millisecond before 1970 becomes 1970 itself in tenths of a second, but the second before it in
seconds. -/
theorem C117_negation_before_1970 : let tm : ZonedTime := ⟨⟨-1, 999000000⟩, 0⟩
    (LitCall.precisionTimestampFromTime 1 tm).Representable ∧
    (LitCall.precisionTimestampFromTime 1 tm).run false =
      .ok (.proto (.int64 0) (.prec .precisionTimestamp 2 0 1)) ∧
    (LitCall.precisionTimestampFromTime 0 tm).run false =
      .ok (.proto (.int64 (-1)) (.prec .precisionTimestamp 2 0 0)) ∧
    ¬ WholeUnits 1 tm.instant.nanos 0 := by
  refine ⟨?_, rfl, rfl, ?_⟩
  · simp [LitCall.Representable, ValidPrecision, ZonedTime.InNanos, ZonedTime.Normal, GoTime.Normal,
      GoTime.nanos, IsInt64]
  · rintro ⟨u, rfl, h, -⟩
    simp [GoTime.nanos] at h

/-- Both ways of making a time of day agree on a time in UTC: the plain time holds the microseconds
that the precision time of precision 6 holds. -/
theorem C117_same_clock (tm : ZonedTime) (nullable : Bool) (h : tm.Normal) (ho : tm.offset = 0) :
    ∃ v, (LitCall.precisionTimeFromTime 6 tm).run nullable =
        .ok (.proto (.int64 v) (.prec .precisionTime (getNullability nullable) 0 6)) ∧
      timeOfParsed tm nullable = .ok (.prim (.time v) (.prim .time (getNullability nullable) 0)) := by
  obtain ⟨g1, g2, g3, -⟩ := nanos_of_clock tm h
  refine ⟨Int64.ofInt (sinceMidnight tm).unixMicro, rfl, ?_⟩
  have e := unixMicro_eq (sinceMidnight tm) g1
  obtain ⟨⟨h1, h2⟩, -⟩ := h
  have e2 : (sinceMidnight tm).unixMicro =
      (tm.instant.sec + tm.offset) % 86400 * 1000000 + goDiv tm.instant.nsec 1000 := by
    rw [e, ho, goDiv_eq _ _ (by omega), if_pos h1, Int.add_zero]
    simp only [sinceMidnight, GoTime.nanos]
    rw [wrap64_id (by omega) (by omega)]
    omega
  have e3 : newTimeFromMicros (sinceMidnight tm).unixMicro = .ok (sinceMidnight tm).unixMicro := by
    refine (C10_newTimeFromMicros _).1 ?_
    rw [e2, goDiv_eq _ _ (by omega), if_pos h1]
    omega
  simp only [timeOfParsed, ← e2, e3, Res.ok_bind, newLiteral, newPrimLiteral]

example : (⟨⟨1700000000, 123456789⟩, 0⟩ : ZonedTime).Normal := by
  simp [ZonedTime.Normal, GoTime.Normal, IsInt64]

end Verif
