import Verif.Props.TestPrint
/-!
# Property C108, continued: decimals, times and types with a precision
-/

namespace Verif

/-- What was brought to a precision and scale stays as it is when brought to them again. -/
theorem modifyDecimal_again {b0 b : List UInt8} {s0 tp ts p s : Int} (hb0 : b0.length = 16)
    (hs0 : -100000 ≤ s0 ∧ s0 ≤ 100000) (hts : -2147483648 ≤ ts ∧ ts ≤ 2147483647)
    (h : modifyDecimal b0 s0 tp ts = .ok (b, p, s)) :
    modifyDecimal b ts tp ts = .ok (b, tp, ts) := by
  obtain ⟨-, -, hb, h0, h1, h2, hv, hf⟩ := C08_same_value b0 s0 tp ts hb0 hs0 hts b p s h
  have hr : ∃ r, modifyDecimal b ts tp ts = .ok r := by
    by_cases hz : signed16 b = 0
    · refine (C08_zero b ts tp ts hb (by omega) hts hz).1 ?_
      by_contra hn
      have hz0 : signed16 b0 = 0 := by
        have : (signed16 b0 : ℚ) / (10 : ℚ) ^ s0 = 0 := by
          have e : bytesValue b0 s0 = 0 := by rw [← hv]; simp [bytesValue, hz]
          exact e
        rcases div_eq_zero_iff.1 this with h | h
        · exact_mod_cast h
        · exact absurd h (zpow_ne_zero _ (by norm_num))
      rw [(C08_zero b0 s0 tp ts hb0 hs0 hts hz0).2 hn] at h
      cases h
    · exact (C08_succeeds_iff b ts tp ts hb (by omega) hts hz).1 ⟨h0, h1, h2, signed16 b, hf, rfl⟩
  obtain ⟨⟨b', p', s'⟩, hr⟩ := hr
  obtain ⟨rfl, rfl, hb', -, -, -, hv', -⟩ := C08_same_value b ts tp ts hb (by omega) hts b' p' s' hr
  have : signed16 b' = signed16 b := by
    unfold bytesValue at hv'
    have hp : (10 : ℚ) ^ s' ≠ 0 := zpow_ne_zero _ (by norm_num)
    have := (div_left_inj' hp).1 hv'
    exact_mod_cast this
  rw [hr, signed16_inj b' b hb' hb this]

/-- **C108 (decimals), partial.** A decimal of a scale up to 37 is read back when Go's text of the number
is a number token that is read as the same number. Missing: the scale 38 (`C108_negation_decimal`). -/
theorem C108_decimal_partial (x : TcExt) (f : TcFmt) (q : Bool) (ps : Option (Bytes × Bytes)) (text : Bytes)
    (d : Dec) (c : CaseLit) (b : Bytes) (t : Ty) (n : Nullability) (w : UInt32) (s p : Int32)
    (hx : x.parseDec text = .ok d) (hd : d.InRange)
    (h : visitTypedArgument x (.decimal q ps text) = .ok c)
    (hc : c.value = .lit (.proto (.bytes b) t)) (ht : c.type = .decimal n w s p) (hs : s.toInt ≤ 37)
    (hk : tokKind (f.decimal (decimalBytesToDec b s.toInt)) = some .integer ∨
      tokKind (f.decimal (decimalBytesToDec b s.toInt)) = some .decimal ∨
      tokKind (f.decimal (decimalBytesToDec b s.toInt)) = some .float)
    (hr : x.parseDec (f.decimal (decimalBytesToDec b s.toInt)) = .ok (decimalBytesToDec b s.toInt)) :
    ReadBack x f c := by
  unfold visitTypedArgument at h
  simp only [visitArgument, newDecimalFromString, hx, Res.ok_bind, Res.bind_eq_ok] at h
  obtain ⟨c', ⟨t', ht', l0, ⟨⟨b0, p0, s0⟩, hb, hl⟩, h1⟩, h2⟩ := h
  cases h1
  obtain ⟨hlen, hs0, hsp, hp38, -, hval⟩ := C06_encoding_exact d hd b0 p0 s0 hb
  simp only [newLiteral] at hl
  rw [if_neg (by simp [hlen])] at hl
  cases hl
  have htake : b0.take 16 = b0 := List.take_of_length_le (by omega)
  rw [htake] at h2
  have htd : ∃ s p, t' = .decimal (getNullability q) 0 s p := by
    cases ps with
    | none => cases ht'; exact ⟨_, _, rfl⟩
    | some ps =>
        simp only [tcType, Res.bind_eq_ok] at ht'
        obtain ⟨p', hp, s', hs', ht'⟩ := ht'
        cases ht'; exact ⟨_, _, rfl⟩
  obtain ⟨s', p', rfl⟩ := htd
  have hty := updateType_type h2
  rw [ht] at hty
  cases hty
  have hsc : (Int32.ofInt s0).toInt = s0 := Int32.toInt_ofInt_of_le (by omega) (by omega)
  simp only [CaseLit.updateType, Ty.getParameters, List.length_cons, List.length_nil, Lit.withType,
    newDecimalWithType, hlen, htake, hsc, Res.bind_eq_ok] at h2
  rw [if_neg (by simp)] at h2
  simp only [Res.bind_eq_ok] at h2
  obtain ⟨l', h3, h4⟩ := h2
  rw [if_neg (by simp)] at h3
  rw [Res.bind_eq_ok] at h3
  obtain ⟨⟨b1, p1, s1⟩, hm, h3⟩ := h3
  obtain ⟨rfl, rfl⟩ := modifyDecimal_params hm
  have hlow := s.le_toInt; have hup := s.toInt_lt
  obtain ⟨-, -, hb1, g0, g1, g2, -, gf⟩ := C08_same_value b0 s0 p.toInt s.toInt hlen (by omega) (by omega) b1 _ _ hm
  simp only [newLiteral, hb1, ne_eq, not_true_eq_false, if_false, Int32.ofInt_toInt, Res.ok.injEq] at h3
  cases h4
  subst h3
  cases hc
  have hm' := modifyDecimal_again hlen (by omega) (by omega) hm
  have hlt : (signed16 b).natAbs < 10 ^ 38 :=
    Nat.lt_of_lt_of_le gf (Nat.pow_le_pow_right (by omega) (by omega))
  obtain ⟨p2, hp2⟩ := C07_reencode b s.toInt hb1 (by omega) hlt
  have hn : getNullability (getNullability q == NullabilityNullable) = getNullability q := by cases q <;> rfl
  have htake' : b.take 16 = b := List.take_of_length_le (by omega)
  have e1 : CaseLit.string f ⟨.decimal (getNullability q) 0 s p,
      .lit (.proto (.bytes b) (.decimal (getNullability (getNullability q == NullabilityNullable)) 0 s p))⟩ =
      .ok (f.decimal (decimalBytesToDec b s.toInt), (Ty.decimal (getNullability q) 0 s p).string) := by
    simp only [CaseLit.string, literalToString, Ty.quotedIso, Bool.false_eq_true, if_false,
      literalToStringPlain, Lit.valueString, ProtoVal.valueString, hb1, Nat.lt_irrefl, Res.ok_bind,
      Ty.quotedPlain, htake']
  have e2 : TcType.text (.decimal q (some (intText p.toInt, intText s.toInt))) =
      (Ty.decimal (getNullability q) 0 s p).string := by
    simp [TcType.text, Ty.string, Ty.pieces, joined, queryMark_eq, intString, intChars, asciiText,
      String.append_assoc]
  refine ⟨_, .decimal q (some (intText p.toInt, intText s.toInt)),
    .decimal q (some (intText p.toInt, intText s.toInt)) (f.decimal (decimalBytesToDec b s.toInt)),
    e2 ▸ e1, ?_, ?_, ?_⟩
  · simp [TcType.parametersLex, tokKind_int]
  · rcases hk with hk | hk | hk <;> simp [tcArgOf, hk]
  · have hsc' : (Int32.ofInt s.toInt).toInt = s.toInt := by rw [Int32.ofInt_toInt]
    simp only [visitTypedArgument, visitArgument, tcType, tcIntegerLiteral_intText, Res.ok_bind,
      newDecimalFromString, hr, hp2, htake', newLiteral, hb1, ne_eq, not_true_eq_false, if_false,
      CaseLit.updateType, Ty.getParameters, List.length_cons, List.length_nil, Lit.withType,
      newDecimalWithType, hsc', hm', Nat.lt_irrefl, Int32.ofInt_toInt, Nat.add_eq_zero_iff,
      Nat.one_ne_zero, and_false]

/-- The bytes of 15 with scale 1, the argument `1.5::decimal<3,1>`. -/
theorem exDecimal (x : TcExt) (hx : x.parseDec [49, 46, 53] = .ok ⟨false, 15, -1⟩) :
    visitTypedArgument x (.decimal false (some ([51], [49])) [49, 46, 53]) =
      .ok ⟨.decimal 2 0 1 3, .lit (.proto (.bytes (15 :: List.replicate 15 0)) (.decimal 2 0 1 3))⟩ := by
  have h1 : decimalToBytes ⟨false, 15, -1⟩ = .ok (15 :: List.replicate 15 0, 2, 1) := by decide +kernel
  have h2 : modifyDecimal (15 :: List.replicate 15 0) 1 3 1 = .ok (15 :: List.replicate 15 0, 3, 1) := by
    decide +kernel
  have a1 : tcIntegerLiteral [51] = .ok 3 := by decide +kernel
  have a2 : tcIntegerLiteral [49] = .ok 1 := by decide +kernel
  have e2 : modifyDecimal (15 :: List.replicate 15 0) (Int32.ofInt 1).toInt (3 : Int32).toInt (1 : Int32).toInt =
      .ok (15 :: List.replicate 15 0, 3, 1) := h2
  simp only [visitTypedArgument, visitArgument, tcType, a1, a2, Res.ok_bind, newDecimalFromString, hx, h1,
    newLiteral]
  rw [if_neg (by decide)]
  simp only [Res.ok_bind, CaseLit.updateType]
  rw [if_neg (by simp [Ty.getParameters])]
  simp only [Lit.withType, newDecimalWithType]
  rw [if_neg (by decide)]
  have e3 : List.take 16 (List.take 16 ((15 : UInt8) :: List.replicate 15 0)) = 15 :: List.replicate 15 0 := rfl
  rw [e3, e2]
  rfl

/-- non-vacuity: `1.5::decimal<3,1>` -/
example (x : TcExt) (f : TcFmt) (hx : x.parseDec [49, 46, 53] = .ok ⟨false, 15, -1⟩)
    (hf : f.decimal ⟨false, 15, -1⟩ = [49, 46, 53]) :
    ∃ c, visitTypedArgument x (.decimal false (some ([51], [49])) [49, 46, 53]) = .ok c ∧ ReadBack x f c := by
  have hd : decimalBytesToDec (15 :: List.replicate 15 0) (1 : Int32).toInt = ⟨false, 15, -1⟩ := by
    have h1 : isNegativeLE (15 :: List.replicate 15 0) = false := by decide +kernel
    have h2 : magnitudeLE (15 :: List.replicate 15 0) = 15 := by decide +kernel
    have h3 : wrap32 (-(1 : Int32).toInt) = -1 := by decide +kernel
    simp only [decimalBytesToDec, h1, h2, h3]
  refine ⟨_, exDecimal x hx, C108_decimal_partial x f false (some ([51], [49])) [49, 46, 53] ⟨false, 15, -1⟩ _
    (15 :: List.replicate 15 0) _ 2 0 1 3 hx ?_ (exDecimal x hx) rfl rfl (by decide) (.inr (.inl ?_)) ?_⟩
  · exact ⟨by decide, by decide, by decide +kernel⟩
  · rw [hd, hf]; rfl
  · rw [hd, hf, hx]

theorem float_type {x : TcExt} {k : Prim} {q : Bool} {text : Bytes} {c : CaseLit}
    (h : visitArgument x (.float k q text) = .ok c) (n : Nullability) (w : UInt32) (s p : Int32) :
    c.type ≠ .decimal n w s p := by
  simp only [visitArgument, tcType, Res.ok_bind, Res.bind_eq_ok] at h
  obtain ⟨l, hl, t, ht, h⟩ := h
  cases h
  unfold getFloatLiteral at hl
  rw [Res.bind_eq_ok] at hl
  obtain ⟨v, -, hl⟩ := hl
  cases k <;> simp only [newLiteral, newPrimLiteral, reduceCtorEq] at hl <;> cases hl <;> cases ht <;> nofun

theorem decimalToBytes_scale38 (b : Bytes) : decimalToBytes (decimalBytesToDec b 38) = .err := by
  have hexp : (decimalBytesToDec b 38).exp = -38 := by
    simp only [decimalBytesToDec]
    rw [wrap32_id (by omega) (by omega)]
  generalize decimalBytesToDec b 38 = d at hexp
  have h1 : wrap32 (-d.exp) = 38 := by rw [hexp, wrap32_id (by omega) (by omega)]; omega
  have h2 : wrap32 (wrap32 (-d.exp) + 1) = 39 := by rw [h1, wrap32_id (by omega) (by omega)]; omega
  have hp : (decPrecisionScale d).1 > 38 := by
    unfold decPrecisionScale
    rw [if_neg (by omega)]
    simp only [h2]
    omega
  simp only [decimalToBytes, hp, if_true]

theorem decimal_text (f : TcFmt) {c : CaseLit} {b v : Bytes} {n : Nullability} {w : UInt32} {s p : Int32}
    {u : String} (hc : c.value = .lit (.proto (.bytes b) (.decimal n w s p))) (h : c.string f = .ok (v, u))
    (hb : b.length = 16) : v = f.decimal (decimalBytesToDec b s.toInt) := by
  have htake' : b.take 16 = b := List.take_of_length_le (by omega)
  simp only [CaseLit.string, hc, literalToString, Ty.quotedIso, Bool.false_eq_true, if_false,
    literalToStringPlain, Lit.valueString, ProtoVal.valueString, hb, Nat.lt_irrefl, Res.ok_bind,
    Ty.quotedPlain, htake', Res.ok.injEq, Prod.mk.injEq] at h
  exact h.1.symm

theorem tcArgOf_decimal {v : Bytes} {t : TcType} {a : TcArg} (hk : tokKind v = some .decimal)
    (h : tcArgOf v t = some a) : (∃ k q, a = .float k q v) ∨ ∃ q ps, a = .decimal q ps v := by
  unfold tcArgOf at h
  rw [hk] at h
  cases t with
  | prim k q =>
    cases k <;> simp only [Option.some.injEq, reduceCtorEq] at h
    · exact .inl ⟨_, _, h.symm⟩
    · exact .inl ⟨_, _, h.symm⟩
  | decimal q ps =>
    simp only [Option.some.injEq] at h
    exact .inr ⟨_, _, h.symm⟩
  | _ => simp only [reduceCtorEq] at h

/-- **C108 is false of decimals with 38 digits after the point**: such a decimal is printed with all its
digits, and reading a text with 38 digits after the point is refused. -/
theorem C108_negation_decimal (x : TcExt) (f : TcFmt) (c : CaseLit) (b : Bytes) (t : Ty) (n : Nullability)
    (w : UInt32) (s p : Int32) (hs : s.toInt = 38) (hb : b.length = 16) (htt : t = .decimal n w s p)
    (hc : c.value = .lit (.proto (.bytes b) t)) (ht : c.type = .decimal n w s p)
    (hk : tokKind (f.decimal (decimalBytesToDec b 38)) = some .decimal)
    (hr : x.parseDec (f.decimal (decimalBytesToDec b 38)) = .ok (decimalBytesToDec b 38)) :
    ¬ ReadBack x f c := by
  rintro ⟨v, tr, a, h1, -, h2, h3⟩
  have hv : v = f.decimal (decimalBytesToDec b 38) := by
    have h7 := decimal_text f (htt ▸ hc) h1 hb
    rwa [hs] at h7
  have herr := decimalToBytes_scale38 b
  generalize decimalBytesToDec b 38 = d at *
  subst hv
  have hty : ∀ c', visitArgument x a = .ok c' → c'.updateType = .ok c → c'.type = .decimal n w s p := by
    intro c' _ h
    rw [← updateType_type h, ht]
  rw [visitTypedArgument, Res.bind_eq_ok] at h3
  obtain ⟨c', h4, h5⟩ := h3
  have h6 := hty c' h4 h5
  rcases tcArgOf_decimal hk h2 with ⟨k, q, rfl⟩ | ⟨q, ps, rfl⟩
  · exact float_type h4 _ _ _ _ h6
  · have he : ∀ n, newDecimalFromString x (f.decimal d) n = .err := by
      intro n
      rw [newDecimalFromString, hr, Res.ok_bind, herr, Res.err_bind]
    simp only [visitArgument, he, Res.err_bind, Res.bind_eq_ok, reduceCtorEq, and_false, exists_false] at h4

/-- non-vacuity: `0.5::decimal<38,38>` is read, with the bytes of 5 · 10^37 -/
example (x : TcExt) (hx : x.parseDec [48, 46, 53] = .ok ⟨false, 5, -1⟩) :
    visitTypedArgument x (.decimal false (some ([51, 56], [51, 56])) [48, 46, 53]) =
      .ok ⟨.decimal 2 0 38 38, .lit (.proto (.bytes [0, 0, 0, 0, 32, 17, 197, 4, 61, 98, 67, 45, 84, 166, 157, 37]) (.decimal 2 0 38 38))⟩ := by
  have h1 : decimalToBytes ⟨false, 5, -1⟩ = .ok (5 :: List.replicate 15 0, 2, 1) := by decide +kernel
  have h2 : modifyDecimal (5 :: List.replicate 15 0) 1 38 38 = .ok ([0, 0, 0, 0, 32, 17, 197, 4, 61, 98, 67, 45, 84, 166, 157, 37], 38, 38) := by decide +kernel
  have a1 : tcIntegerLiteral [51, 56] = .ok 38 := by decide +kernel
  have e2 : modifyDecimal (5 :: List.replicate 15 0) (Int32.ofInt 1).toInt (38 : Int32).toInt (38 : Int32).toInt =
      .ok ([0, 0, 0, 0, 32, 17, 197, 4, 61, 98, 67, 45, 84, 166, 157, 37], 38, 38) := h2
  simp only [visitTypedArgument, visitArgument, tcType, a1, Res.ok_bind, newDecimalFromString, hx, h1,
    newLiteral]
  rw [if_neg (by decide)]
  simp only [Res.ok_bind, CaseLit.updateType]
  rw [if_neg (by simp [Ty.getParameters])]
  simp only [Lit.withType, newDecimalWithType]
  rw [if_neg (by decide)]
  have e3 : List.take 16 (List.take 16 ((5 : UInt8) :: List.replicate 15 0)) = 5 :: List.replicate 15 0 := rfl
  rw [e3, e2]
  rfl

/-- **C108 (times of day), partial.** When the text of the time is a time token that is read as the same
time of day. -/
theorem C108_time_partial (x : TcExt) (f : TcFmt) (q : Bool) (text : Bytes) (i : Int64) (c : CaseLit)
    (h : visitTypedArgument x (.time q text) = .ok c) (t : Ty) (hc : c.value = .lit (.prim (.time i) t))
    (hk : tokKind (tcQuoted (f.time true i)) = some .time) (tm : GoTime) (hn : tm.Normal)
    (hr : x.parseTime (rawString (tcQuoted (f.time true i))) = .ok tm)
    (hm : tm.nanos % 86400000000000 / 1000 = i.toInt) : ReadBack x f c := by
  unfold visitTypedArgument at h
  simp only [visitArgument, newTimeFromString, newLiteral, newPrimLiteral, Res.bind_eq_ok] at h
  obtain ⟨c', ⟨l, ⟨tm', -, m, -, hl⟩, h1⟩, h2⟩ := h
  cases hl; cases h1; cases h2
  cases hc
  obtain ⟨j, hj, hv⟩ := C107_time x q _ tm hr hn
  have e : j = Int64.ofInt m := Int64.toInt_inj.1 (hj.trans hm)
  subst e
  refine ⟨tcQuoted (f.time true (Int64.ofInt m)), .prim .time q,
    .time q (tcQuoted (f.time true (Int64.ofInt m))), by cases q <;> rfl, rfl, by simp [tcArgOf, hk], ?_⟩
  rw [hv]
  cases q <;> rfl

/-- non-vacuity: the text of a time is a time token -/
example : tokKind (tcQuoted [49, 50, 58, 51, 52, 58, 53, 54, 46, 55, 56]) = some .time := by rfl

/-- The token of the values of a type with a precision. -/
def Prec.tok : Prec → TcTok
  | .intervalDay => .intervalDay
  | .precisionTime => .time
  | .precisionTimestamp => .timestamp
  | .precisionTimestampTz => .timestampTz

/-- Printed texts for the examples: `23:59:58.5` for times, `1969-12-31T23:59:58.5` for timestamps. -/
def exClock : TcFmt where
  float32 _ := []
  float64 _ := []
  date _ := []
  time _ _ := []
  timestamp _ _ := []
  timestampTz _ _ := []
  prec _ k _ _ := match k with
    | .precisionTime => [50, 51, 58, 53, 57, 58, 53, 56, 46, 53]
    | _ => [49, 57, 54, 57, 45, 49, 50, 45, 51, 49, 84, 50, 51, 58, 53, 57, 58, 53, 56, 46, 53]
  decimal _ := []
  bytes _ _ := []
  other _ := []

theorem visitPrec_lit {x : TcExt} {k : Prec} {q : Bool} {pt : Option Bytes} {text : Bytes} {i : Int64} {c : CaseLit}
    {t : Ty} {n : Nullability} {w : UInt32} {p : Int32} (hki : k ≠ .intervalDay)
    (h : visitTypedArgument x (.prec k q pt text) = .ok c) (hc : c.value = .lit (.proto (.int64 i) t))
    (ht : c.type = .prec k n w p) :
    c = ⟨.prec k (mark q) 0 p, .lit (.proto (.int64 i) (.prec k (mark q) 0 p))⟩ := by
  unfold visitTypedArgument at h
  simp only [visitArgument, Res.bind_eq_ok] at h
  obtain ⟨c', ⟨t', ht', h1⟩, h2⟩ := h
  have hty : ∃ p', t' = .prec k (mark q) 0 p' := by
    cases pt with
    | none => cases k <;> first | exact absurd rfl hki | cases ht'
    | some pt =>
      simp only [tcType, Res.bind_eq_ok] at ht'
      obtain ⟨p', -, ht'⟩ := ht'
      cases ht'; exact ⟨p', by rw [mark_eq]⟩
  obtain ⟨p', rfl⟩ := hty
  simp only [Res.bind_eq_ok] at h1
  obtain ⟨l, hl, h1⟩ := h1
  cases h1
  have hct := updateType_type h2
  rw [ht] at hct
  cases hct
  have hl' : ∃ v, l = .proto (.int64 v) (.prec k (mark q) 0 p) := by
    unfold newPrecFromString at hl
    rw [Res.bind_eq_ok] at hl
    obtain ⟨tm, -, hl⟩ := hl
    simp only at hl
    split at hl
    · cases hl
    · rw [Res.bind_eq_ok] at hl
      obtain ⟨v, -, hl⟩ := hl
      refine ⟨Int64.ofInt v, ?_⟩
      cases k <;> first | exact absurd rfl hki | skip
      all_goals cases q <;> (simp only [precLitArg, newLiteral, Res.ok.injEq] at hl; rw [← hl]; rfl)
  obtain ⟨v, rfl⟩ := hl'
  unfold CaseLit.updateType at h2
  rw [if_neg (by simp [Ty.getParameters])] at h2
  simp only [Res.bind_eq_ok] at h2
  obtain ⟨l', h3, h4⟩ := h2
  have hl2 : ∃ r, l' = .proto (.int64 r) (.prec k (mark q) 0 p) := by
    cases k <;> first | exact absurd rfl hki | skip
    all_goals
      simp only [Lit.withType, newTimeWithType, ne_eq, not_true_eq_false, if_false] at h3
      split at h3
      · cases h3
      · rw [Res.bind_eq_ok] at h3
        obtain ⟨r, -, h3⟩ := h3
        cases h3
        exact ⟨_, rfl⟩
  obtain ⟨r, rfl⟩ := hl2
  cases h4
  cases hc
  rfl

/-- **C108 (types with a precision), partial.** Times and timestamps of the precisions 0 to 9 are read
back when the printed text is a token of the kind and is read as the same instant (for times: time of
day). Timestamps with a zone are printed without it, which is another token (`C108_negation_prec_tz`). -/
theorem C108_precision_partial (x : TcExt) (f : TcFmt) (k : Prec) (q : Bool) (pt : Option Bytes) (text : Bytes)
    (i : Int64) (c : CaseLit) (t : Ty) (n : Nullability) (w : UInt32) (p : Int32) (hki : k ≠ .intervalDay)
    (h : visitTypedArgument x (.prec k q pt text) = .ok c) (hc : c.value = .lit (.proto (.int64 i) t))
    (ht : c.type = .prec k n w p) (hp : 0 ≤ p.toInt ∧ p.toInt ≤ 9)
    (hk : tokKind (tcQuoted (f.prec true k p i)) = some k.tok) (tm tm' : GoTime) (hn : tm.Normal)
    (hr : x.parseTime (rawString (tcQuoted (f.prec true k p i))) = .ok tm)
    (hkt : (k = .precisionTimestamp ∨ k = .precisionTimestampTz) ∧ tm' = tm ∨
      k = .precisionTime ∧ tm' = ⟨tm.sec % 86400, tm.nsec⟩)
    (hm : tm'.nanos = i.toInt * 10 ^ (9 - p.toInt.toNat))
    (hi : IsInt64 (i.toInt * 10 ^ (siPrecision p.toInt.toNat - p.toInt.toNat))) : ReadBack x f c := by
  have hlit := visitPrec_lit hki h hc ht
  subst hlit
  obtain ⟨l, hv, hval, hty⟩ := C107_precision_partial x k q (intText p.toInt) (tcQuoted (f.prec true k p i)) p tm tm'
    i.toInt (writesInt_intText p) hp.1 hp.2 hr hn hkt hm hi
  have hl : l = .proto (.int64 i) (.prec k (mark q) 0 p) := by
    rw [hm] at hval
    have hpos : (10 : ℤ) ^ (9 - p.toInt.toNat) ≠ 0 := by positivity
    have key : ∀ j : Int64, j.toInt * 10 ^ (9 - p.toInt.toNat) = i.toInt * 10 ^ (9 - p.toInt.toNat) → j = i :=
      fun j hj => Int64.toInt_inj.1 (mul_right_cancel₀ hpos hj)
    unfold Lit.value at hval
    split at hval <;> simp only [Option.some.injEq, reduceCtorEq, LitValue.nanos.injEq] at hval
    cases hty
    rw [key _ hval]
  subst hl
  have e2 : TcType.text (.prec k q (some (intText p.toInt))) = (Ty.prec k (mark q) 0 p).string := by
    rw [← mark_eq]
    simp [TcType.text, Ty.string, Ty.pieces, joined, queryMark_eq, intString, intChars, asciiText, prec_word,
      String.append_assoc]
  refine ⟨tcQuoted (f.prec true k p i), .prec k q (some (intText p.toInt)),
    .prec k q (some (intText p.toInt)) (tcQuoted (f.prec true k p i)), ?_, ?_, ?_, hv⟩
  · rw [e2]
    cases k <;> first | exact absurd rfl hki | rfl
  · simp [TcType.parametersLex, tokKind_int]
  · cases k <;> first | exact absurd rfl hki | simp [tcArgOf, hk, Prec.tok]

/-- non-vacuity: `'23:59:58.5'::precision_time<1>` is read back -/
example : ∃ c, visitTypedArgument exExt (.prec .precisionTime false (some [49]) []) = .ok c ∧
    ReadBack exExt exClock c := by
  have er : visitTypedArgument exExt (.prec .precisionTime false (some [49]) []) =
      .ok ⟨.prec .precisionTime (mark false) 0 1, .lit (.proto (.int64 863985) (.prec .precisionTime (mark false) 0 1))⟩ := by
    rfl
  exact ⟨_, er, C108_precision_partial exExt exClock .precisionTime false (some [49]) [] 863985 _ _ _ _ 1 (by simp) er rfl
    rfl (by decide) (by rfl) ⟨-2, 500000000⟩ ⟨86398, 500000000⟩ ⟨by decide, by decide⟩ rfl (.inr ⟨rfl, rfl⟩) (by decide)
    ⟨by decide, by decide⟩⟩

/-- **C108 is false of timestamps with a precision and a time zone**: they are printed without the zone as well. -/
theorem C108_negation_prec_tz (x : TcExt) (f : TcFmt) (q : Bool) (pt : Option Bytes) (text : Bytes) (i : Int64)
    (c : CaseLit) (t : Ty) (n : Nullability) (w : UInt32) (p : Int32)
    (h : visitTypedArgument x (.prec .precisionTimestampTz q pt text) = .ok c)
    (hc : c.value = .lit (.proto (.int64 i) t)) (ht : c.type = .prec .precisionTimestampTz n w p)
    (hk : tokKind (tcQuoted (f.prec true .precisionTimestampTz p i)) = some .timestamp) : ¬ ReadBack x f c := by
  have hlit := visitPrec_lit (by simp) h hc ht
  subst hlit
  rintro ⟨v, tr, a, h1, -, h2, h3⟩
  have hv : v = tcQuoted (f.prec true .precisionTimestampTz p i) := by
    have h4 := h1
    simp only [CaseLit.string, literalToString] at h4
    injection h4 with h4; injection h4 with h4 h5; exact h4.symm
  subst hv
  unfold tcArgOf at h2
  rw [hk] at h2
  split at h2 <;> first | (cases h2; done) | (rename_i e; cases e; done) | skip
  · injection h2 with h2
    subst h2
    simp only [visitTypedArgument, visitArgument, newTimestampFromString, newLiteral, newPrimLiteral, Res.bind_eq_ok] at h3
    obtain ⟨c', ⟨l, ⟨tm', -, hl⟩, h1⟩, h2⟩ := h3
    cases hl; cases h1; cases h2
  · injection h2 with h2
    subst h2
    simp only [visitTypedArgument, visitArgument, Res.bind_eq_ok] at h3
    obtain ⟨c', ⟨t, ht', h4⟩, h5⟩ := h3
    have h6 := updateType_type h5
    have h7 : ∃ n v p, t = .prec .precisionTimestamp n v p := by
      rename_i pt _
      cases pt with
      | none => cases ht'
      | some pt =>
        simp only [tcType, Res.bind_eq_ok] at ht'
        obtain ⟨p, -, ht'⟩ := ht'
        cases ht'; exact ⟨_, _, _, rfl⟩
    obtain ⟨n, w, p, rfl⟩ := h7
    simp only [Res.bind_eq_ok] at h4
    obtain ⟨l, -, h4⟩ := h4
    cases h4
    cases h6

/-- non-vacuity: `'1969-12-31T23:59:58.5+00:00'::pts_tz<1>`, printed without the zone, is not read back -/
example : ∃ c, visitTypedArgument exExt (.prec .precisionTimestampTz false (some [49]) []) = .ok c ∧
    ¬ ReadBack exExt exClock c := by
  have er : visitTypedArgument exExt (.prec .precisionTimestampTz false (some [49]) []) =
      .ok ⟨.prec .precisionTimestampTz (mark false) 0 1,
        .lit (.proto (.int64 (-15)) (.prec .precisionTimestampTz (mark false) 0 1))⟩ := by
    rfl
  exact ⟨_, er, C108_negation_prec_tz exExt exClock false (some [49]) [] (-15) _ _ _ _ 1 er rfl rfl (by rfl)⟩

end Verif
