import Verif.Spec.TestPrint
import Verif.Lemmas.TestLex
import Verif.Props.TestValue
import Verif.Props.DayIntervalText
/-!
# Properties of printing arguments of function tests (C108)

`CaseLiteral.String` prints an argument the way function test files write it. The text before `::` and the text of the
type are given separately (`CaseLit.string`); `tcArgOf` is what the grammar makes of a token and a type. The printing of
floats, dates, times and decimals is given by the parameter `f`.
-/

namespace Verif

/-- **C108.** An argument that was read from a file is printed as a text that is read as the same argument. -/
def C108_statement : Prop :=
  ∀ (x : TcExt) (f : TcFmt) (text : Bytes) (t : TcType) (a : TcArg) (c : CaseLit),
    tcArgOf text t = some a → visitTypedArgument x a = .ok c → ReadBack x f c

theorem tcIntegerLiteral_intText (p : Int32) : tcIntegerLiteral (intText p.toInt) = .ok p := by
  unfold tcIntegerLiteral
  have h1 := p.le_toInt; have h2 := p.toInt_lt
  rw [atoi_intText _ ⟨by omega, by omega⟩, Res.ok_bind, Int32.ofInt_toInt]

theorem queryMark_eq (q : Bool) : strNullable (getNullability q) = queryMark q := by cases q <;> rfl

theorem prim_word (k : Prim) : k.longName = k.word := by cases k <;> rfl

theorem fixed_word (k : Fixed) : k.longName = k.word := by cases k <;> rfl

theorem prec_word (k : Prec) : k.longName = k.word := by cases k <;> rfl

/-- **C108 (types).** The text of every type that a file can have is read as that type. -/
theorem C108_type (tr : TcType) (t : Ty) (h : tcType tr = .ok t) :
    ∃ tr', tr'.text = t.string ∧ tr'.parametersLex = true ∧ tcType tr' = .ok t := by
  induction tr generalizing t with
  | prim k q =>
    cases h
    exact ⟨.prim k q, by simp [TcType.text, Ty.string, Ty.pieces, joined, queryMark_eq, prim_word], rfl, rfl⟩
  | decimal q ps =>
    have key : ∀ p s : Int32, ∃ tr' : TcType, tr'.text = (Ty.decimal (getNullability q) 0 s p).string ∧
        tr'.parametersLex = true ∧ tcType tr' = .ok (.decimal (getNullability q) 0 s p) := by
      intro p s
      refine ⟨.decimal q (some (intText p.toInt, intText s.toInt)), ?_, ?_, ?_⟩
      · simp [TcType.text, Ty.string, Ty.pieces, joined, queryMark_eq, intString, intChars, asciiText, String.append_assoc]
      · simp [TcType.parametersLex, tokKind_int]
      · simp [tcType, tcIntegerLiteral_intText, Res.ok_bind]
    cases ps with
    | none => cases h; exact key 38 0
    | some ps =>
      obtain ⟨a, b⟩ := ps
      simp only [tcType, Res.bind_eq_ok] at h
      obtain ⟨p, -, s, -, h⟩ := h
      cases h
      exact key p s
  | prec k q p =>
    have key : ∀ p : Int32, ∃ tr' : TcType, tr'.text = (Ty.prec k (getNullability q) 0 p).string ∧
        tr'.parametersLex = true ∧ tcType tr' = .ok (.prec k (getNullability q) 0 p) := by
      intro p
      refine ⟨.prec k q (some (intText p.toInt)), ?_, ?_, ?_⟩
      · simp [TcType.text, Ty.string, Ty.pieces, joined, queryMark_eq, intString, intChars, asciiText, prec_word,
          String.append_assoc]
      · simp [TcType.parametersLex, tokKind_int]
      · simp [tcType, tcIntegerLiteral_intText, Res.ok_bind]
    cases p with
    | none => cases k <;> cases h; exact key 0
    | some p =>
      simp only [tcType, Res.bind_eq_ok] at h
      obtain ⟨p, -, h⟩ := h
      cases h
      exact key p
  | fixed k q l =>
    simp only [tcType, Res.bind_eq_ok] at h
    obtain ⟨p, -, h⟩ := h
    cases h
    refine ⟨.fixed k q (intText p.toInt), ?_, ?_, ?_⟩
    · simp [TcType.text, Ty.string, Ty.pieces, joined, queryMark_eq, intString, intChars, asciiText, fixed_word,
        String.append_assoc]
    · simp [TcType.parametersLex, tokKind_int]
    · simp [tcType, tcIntegerLiteral_intText, Res.ok_bind]
  | list q e ih =>
    simp only [tcType, Res.bind_eq_ok] at h
    obtain ⟨t', h1, h⟩ := h
    cases h
    obtain ⟨e', h2, h3, h4⟩ := ih t' h1
    refine ⟨.list q e', ?_, ?_, ?_⟩
    · simp only [TcType.text, h2, Ty.string, Ty.pieces, joined_append]
      simp [joined, queryMark_eq, String.append_assoc]
    · exact h3
    · simp [tcType, h4, Res.ok_bind]
  | other => cases h

/-- non-vacuity: `list?<decimal<10,2>>` -/
example : tcType (.list true (.decimal false (some ([49, 48], [50])))) = .ok (.list 1 0 (.decimal 2 0 2 10)) := rfl

/-- **C108 (integers).** -/
theorem C108_integer (x : TcExt) (f : TcFmt) (k : Prim) (q : Bool) (text : Bytes) (c : CaseLit)
    (h : visitTypedArgument x (.int k q text) = .ok c) : ReadBack x f c := by
  unfold visitTypedArgument at h
  simp only [visitArgument, tcType, Res.ok_bind, Res.bind_eq_ok] at h
  obtain ⟨c', ⟨l, hl, h1⟩, h2⟩ := h
  cases h1
  unfold getIntLiteral at hl
  rw [Res.bind_eq_ok] at hl
  obtain ⟨v, -, hl⟩ := hl
  have hw : ∀ k : Prim, TcType.text (.prim k q) = (Ty.prim k (getNullability q) 0).string := fun k => by
    simp [TcType.text, Ty.string, Ty.pieces, joined, queryMark_eq, prim_word]
  cases k <;> simp only [newLiteral, newPrimLiteral, reduceCtorEq] at hl
  all_goals
    cases hl
    cases h2
  · refine ⟨intText (Int8.ofInt v).toInt, .prim .i8 q, .int .i8 q (intText (Int8.ofInt v).toInt), ?_, rfl, ?_, ?_⟩
    · rw [hw]; rfl
    · simp [tcArgOf, tokKind_int]
    · have hr : IsInt64 (Int8.ofInt v).toInt := by
        have h1 := (Int8.ofInt v).le_toInt; have h2 := (Int8.ofInt v).toInt_lt; constructor <;> omega
      simp only [visitTypedArgument, visitArgument, tcType, getIntLiteral, atoi_intText _ hr, Res.ok_bind,
        newLiteral, newPrimLiteral, Int8.ofInt_toInt]
      rfl
  · refine ⟨intText (Int16.ofInt v).toInt, .prim .i16 q, .int .i16 q (intText (Int16.ofInt v).toInt), ?_, rfl, ?_, ?_⟩
    · rw [hw]; rfl
    · simp [tcArgOf, tokKind_int]
    · have hr : IsInt64 (Int16.ofInt v).toInt := by
        have h1 := (Int16.ofInt v).le_toInt; have h2 := (Int16.ofInt v).toInt_lt; constructor <;> omega
      simp only [visitTypedArgument, visitArgument, tcType, getIntLiteral, atoi_intText _ hr, Res.ok_bind,
        newLiteral, newPrimLiteral, Int16.ofInt_toInt]
      rfl
  · refine ⟨intText (Int32.ofInt v).toInt, .prim .i32 q, .int .i32 q (intText (Int32.ofInt v).toInt), ?_, rfl, ?_, ?_⟩
    · rw [hw]; rfl
    · simp [tcArgOf, tokKind_int]
    · have hr : IsInt64 (Int32.ofInt v).toInt := by
        have h1 := (Int32.ofInt v).le_toInt; have h2 := (Int32.ofInt v).toInt_lt; constructor <;> omega
      simp only [visitTypedArgument, visitArgument, tcType, getIntLiteral, atoi_intText _ hr, Res.ok_bind,
        newLiteral, newPrimLiteral, Int32.ofInt_toInt]
      rfl
  · refine ⟨intText (Int64.ofInt v).toInt, .prim .i64 q, .int .i64 q (intText (Int64.ofInt v).toInt), ?_, rfl, ?_, ?_⟩
    · rw [hw]; rfl
    · simp [tcArgOf, tokKind_int]
    · have hr : IsInt64 (Int64.ofInt v).toInt := by
        have h1 := (Int64.ofInt v).le_toInt; have h2 := (Int64.ofInt v).toInt_lt; constructor <;> omega
      simp only [visitTypedArgument, visitArgument, tcType, getIntLiteral, atoi_intText _ hr, Res.ok_bind,
        newLiteral, newPrimLiteral, Int64.ofInt_toInt]
      rfl

/-- non-vacuity: `0012::i8` -/
example (x : TcExt) : ∃ c, visitTypedArgument x (.int .i8 false [48, 48, 49, 50]) = .ok c := ⟨_, rfl⟩

/-- **C108 (nulls).** Nulls of every type. -/
theorem C108_null (x : TcExt) (f : TcFmt) (tr : TcType) (c : CaseLit)
    (h : visitTypedArgument x (.null tr) = .ok c) : ReadBack x f c := by
  unfold visitTypedArgument at h
  simp only [visitArgument, Res.bind_eq_ok] at h
  obtain ⟨c', ⟨t, ht, h1⟩, h2⟩ := h
  obtain ⟨tr', h3, h4, h5⟩ := C108_type tr t ht
  have hn : ¬ (!t.isNullable) = true := by
    intro hn; rw [if_pos hn] at h1; cases h1
  rw [if_neg hn] at h1
  cases h1
  have hc : c = ⟨t, .lit (newNullLiteral t)⟩ := by
    unfold CaseLit.updateType newNullLiteral at h2
    simp only at h2
    split at h2 <;> cases h2 <;> rfl
  subst hc
  refine ⟨[110, 117, 108, 108], tr', .null tr', ?_, h4, by rfl, ?_⟩
  · rw [h3]; rfl
  · simp only [visitTypedArgument, visitArgument, h5, Res.ok_bind, if_neg hn, h2]

/-- non-vacuity: `null::varchar?<5>` -/
example (x : TcExt) : ∃ c, visitTypedArgument x (.null (.fixed .varChar true [53])) = .ok c := ⟨_, rfl⟩

/-- **C108 (booleans).** -/
theorem C108_bool (x : TcExt) (f : TcFmt) (q b : Bool) (c : CaseLit)
    (h : visitTypedArgument x (.bool q b) = .ok c) : ReadBack x f c := by
  refine ⟨boolText b, .prim .boolean q, .bool q b, ?_, rfl, ?_, h⟩
  · cases q <;> cases h <;> rfl
  · cases b <;> rfl

theorem rawString_raw (text : Bytes) : rawString (tcQuoted (rawString text)) = rawString text := by
  have hh : ∀ (l : Bytes) b, (l.dropWhile (· == 39)).head? = some b → b ≠ 39 := by
    intro l b hb e
    have := List.head?_dropWhile_not (· == (39 : UInt8)) l
    rw [hb] at this
    simp [e] at this
  refine rawString_token (rawString text) ?_ ?_
  · intro b hb
    have hp : rawString text <+: text.dropWhile (· == 39) := by
      have := List.dropWhile_suffix (· == (39 : UInt8)) (l := (text.dropWhile (· == 39)).reverse)
      rw [← List.reverse_prefix] at this
      rwa [List.reverse_reverse] at this
    refine hh text b ?_
    obtain ⟨r, hr⟩ := hp
    rw [← hr, List.head?_append, hb]; rfl
  · intro b hb
    unfold rawString at hb
    rw [List.getLast?_reverse] at hb
    exact hh _ b hb

/-- **C108 (which strings).** A string is printed as a string token when it has neither quotes nor backslashes and does
not look like a date, a time or an interval. -/
theorem C108_plain (s : Bytes) (hb : ∀ b ∈ s, PlainByte b) (hs : PlainStart s) :
    tokKind (tcQuoted s) = some .string := by
  have hlang : rxString.Lang (tcQuoted s) := by
    refine Bx.seqs_cons (s := [39]) (Bx.lang_chr 39) (Bx.seqs_cons (s := s) ?_ (Bx.seqs_cons (t := []) (Bx.lang_chr 39) .eps))
    clear hs
    induction s with
    | nil => exact .starNil
    | cons b s ih =>
      refine Bx.Lang.starCons (s := [b]) (.altR (.altR (.set ?_))) (ih fun c hc => hb c (by simp [hc]))
      obtain ⟨h1, h2⟩ := hb b (by simp)
      simp [h1, h2]
  have hr := (Bx.run_iff _ _).2 hlang
  cases s with
  | nil => rfl
  | cons b s =>
    obtain ⟨h1, h2, h3⟩ := hs b rfl
    have hf : ∀ r : Bx, r.first b = false → (Bx.seq (Bx.chr 39) r).run (39 :: b :: (s ++ [39])) = false := by
      intro r hr
      rw [Bx.run_chr_cons]; exact Bx.run_first hr
    have e : tcQuoted (b :: s) = 39 :: b :: (s ++ [39]) := rfl
    rw [e] at hr ⊢
    rw [tokKind_letter b _ (by simp [isDigit]; omega)]
    have g1 : rxIntervalYear.run (39 :: b :: (s ++ [39])) = false := hf _ (by
      simp [Bx.first, Bx.seqs, Bx.letter, Bx.nullable, h2, h3])
    have g2 : rxIntervalDay.run (39 :: b :: (s ++ [39])) = false := hf _ (by
      simp [Bx.first, Bx.seqs, Bx.letter, Bx.nullable, h2, h3])
    have g3 : rxIntervalCompound.run (39 :: b :: (s ++ [39])) = false := hf _ (by
      simp [Bx.first, Bx.seqs, Bx.letter, Bx.nullable, h2, h3])
    simp only [List.find?_cons, g1, g2, g3, hr, Option.map_some]

/-- **C108 (strings), partial.** Strings whose quoted text is a string token (`C108_plain`). Missing: the others
(`C108_negation_string`). -/
theorem C108_string_partial (x : TcExt) (f : TcFmt) (q : Bool) (text : Bytes) (c : CaseLit)
    (h : visitTypedArgument x (.string q text) = .ok c) (hk : tokKind (tcQuoted (rawString text)) = some .string) :
    ReadBack x f c := by
  have h' := h
  unfold visitTypedArgument at h
  simp only [visitArgument, newLiteral, newPrimLiteral, Res.ok_bind] at h
  cases h
  refine ⟨tcQuoted (rawString text), .prim .string q, .string q (tcQuoted (rawString text)), ?_, rfl, ?_, ?_⟩
  · cases q <;> rfl
  · simp [tcArgOf, hk]
  · rw [← h']
    simp only [visitTypedArgument, visitArgument, rawString_raw]

/-- non-vacuity: `'ab'::string` -/
example (x : TcExt) : (∃ c, visitTypedArgument x (.string false [39, 97, 98, 39]) = .ok c) ∧
    tokKind (tcQuoted (rawString [39, 97, 98, 39])) = some .string ∧ (∀ b ∈ ([97, 98] : Bytes), PlainByte b) ∧
    PlainStart [97, 98] := by
  refine ⟨⟨_, rfl⟩, by rfl, ?_, ?_⟩
  · intro b hb
    unfold PlainByte
    revert b
    decide
  · intro b hb
    cases hb
    decide

/-- **C108 (fixed and varying length strings), partial.** As `C108_string_partial`. -/
theorem C108_fixed_partial (x : TcExt) (f : TcFmt) (k : Fixed) (q : Bool) (len text : Bytes) (c : CaseLit)
    (h : visitTypedArgument x (.fixed k q len text) = .ok c) (hb : k ≠ .fixedBinary)
    (hk : tokKind (tcQuoted (rawString text)) = some .string) : ReadBack x f c := by
  unfold visitTypedArgument at h
  simp only [visitArgument, Res.bind_eq_ok] at h
  obtain ⟨c', ⟨t, ht, h1⟩, h2⟩ := h
  simp only [tcType, Res.bind_eq_ok] at ht
  obtain ⟨n, -, ht⟩ := ht
  cases ht
  have htext : TcType.text (.fixed k q (intText n.toInt)) = (Ty.fixed k (getNullability q) 0 n).string := by
    simp [TcType.text, Ty.string, Ty.pieces, joined, queryMark_eq, intString, intChars, asciiText, fixed_word,
      String.append_assoc]
  have hlit : c.type = .fixed k (getNullability q) 0 n ∧ ∃ l, c.value = .lit l ∧
      literalToString f l = .ok (tcQuoted (rawString text)) := by
    cases k with
    | fixedBinary => exact absurd rfl hb
    | fixedChar =>
      simp only [newLiteral, newPrimLiteral, Res.ok_bind, Res.ok.injEq] at h1
      subst h1
      simp [CaseLit.updateType, Ty.getParameters, Lit.withType, Res.ok_bind] at h2
      subst h2
      exact ⟨rfl, _, rfl, rfl⟩
    | varChar =>
      simp only [newVarCharLiteral, newLiteral, Res.ok_bind, Res.ok.injEq] at h1
      subst h1
      simp [CaseLit.updateType, Ty.getParameters, Lit.withType, newVarCharWithType, Res.bind_eq_ok] at h2
      obtain ⟨l, hl, h2⟩ := h2
      split at hl
      · cases hl
      · cases hl; cases h2
        exact ⟨rfl, _, rfl, rfl⟩
  obtain ⟨e1, l, e2, e3⟩ := hlit
  refine ⟨tcQuoted (rawString text), .fixed k q (intText n.toInt),
    .fixed k q (intText n.toInt) (tcQuoted (rawString text)), ?_, ?_, ?_, ?_⟩
  · simp only [CaseLit.string, e2, e3, Res.ok_bind, e1, htext]
  · simp [TcType.parametersLex, tokKind_int]
  · simp [tcArgOf, hk]
  · simp only [visitTypedArgument, visitArgument, tcType, tcIntegerLiteral_intText, Res.ok_bind, rawString_raw]
    rw [h1]; exact h2

/-- non-vacuity: `'ab'::varchar<5>` -/
example (x : TcExt) : (∃ c, visitTypedArgument x (.fixed .varChar false [53] [39, 97, 98, 39]) = .ok c) ∧
    tokKind (tcQuoted (rawString [39, 97, 98, 39])) = some .string := ⟨⟨_, rfl⟩, by rfl⟩

theorem tokKind_year (y m : Int) : tokKind (tcQuoted (intervalYearIso y m)) = some .intervalYear := by
  have hl : rxIntervalYear.Lang (tcQuoted (intervalYearIso y m)) := by
    have h := Bx.Lang.seq (Bx.lang_chr 39) (Bx.seqs_cons (Bx.lang_letter 80) (Bx.seqs_cons
      (.altL (b := .seq rxInteger (.letter 77)) (Bx.seqs_cons (intText_lang y) (Bx.seqs_cons (Bx.lang_letter 89) (Bx.seqs_cons
        (Bx.opt_some (.seq (intText_lang m) (Bx.lang_letter 77))) Bx.seqs_nil))))
      (Bx.seqs_cons (Bx.lang_chr 39) Bx.seqs_nil)))
    unfold rxIntervalYear rxQuoted tcQuoted intervalYearIso
    simpa using h
  have hr := (Bx.run_iff _ _).2 hl
  have e : tcQuoted (intervalYearIso y m) = 39 :: 80 :: ((intText y ++ 89 :: (intText m ++ [77])) ++ [39]) := rfl
  rw [e] at hr ⊢
  rw [tokKind_letter 80 _ (by decide)]
  simp only [List.find?_cons, hr, Option.map_some]

/-- **C108 (years and months).** -/
theorem C108_year_interval (x : TcExt) (f : TcFmt) (q : Bool) (text : Bytes) (c : CaseLit)
    (h : visitTypedArgument x (.intervalYear q text) = .ok c) : ReadBack x f c := by
  unfold visitTypedArgument at h
  simp only [visitArgument, newIntervalYearFromString, Res.bind_eq_ok] at h
  obtain ⟨c', ⟨l, ⟨⟨y, m⟩, -, hl⟩, h1⟩, h2⟩ := h
  have hc : ∃ y m : Int32, c = ⟨.prim .intervalYear (mark q) 0,
      .lit (.proto (.intervalYearToMonth y m) (.prim .intervalYear (mark q) 0))⟩ := by
    simp only [newLiteral] at hl
    cases hl; cases h1; cases h2
    exact ⟨_, _, by cases q <;> rfl⟩
  obtain ⟨y, m, rfl⟩ := hc
  refine ⟨tcQuoted (intervalYearIso y.toInt m.toInt), .prim .intervalYear q,
    .intervalYear q (tcQuoted (intervalYearIso y.toInt m.toInt)), ?_, rfl, ?_, C107_year_interval x q y m⟩
  · cases q <;> rfl
  · simp [tcArgOf, tokKind_year]

/-- non-vacuity: `'P1Y2M'::interval_year` -/
example (x : TcExt) : ∃ c, visitTypedArgument x (.intervalYear false (39 :: intervalYearIso 1 2 ++ [39])) = .ok c :=
  ⟨_, C107_year_interval x false 1 2⟩

theorem frac_decimal (n : Nat) {ds : Bytes} (h : Digits ds) :
    rxDecimal.Lang (natText n ++ (if ds = [] then [] else 46 :: ds)) := by
  unfold rxDecimal
  have hn := digits_lang (natText_digits n) (natText_ne_nil n)
  split
  · simpa using Bx.seqs_cons (Bx.opt_none rxSign) (Bx.seqs_cons hn
      (Bx.seqs_cons (Bx.opt_none (.seq (.chr 46) rxDigit.plus)) Bx.seqs_nil))
  · rename_i h0
    simpa using Bx.seqs_cons (Bx.opt_none rxSign) (Bx.seqs_cons hn
      (Bx.seqs_cons (Bx.opt_some (.seq (Bx.lang_chr 46) (digits_lang h h0))) Bx.seqs_nil))

theorem timeInterval_lang (secs : Nat) {ds : Bytes} (h : Digits ds) (days : Option Bytes) :
    rxTimeInterval.Lang (unitText 72 (printedParts days secs ds).hours ++ unitText 77 (printedParts days secs ds).minutes ++
      secondsText (printedParts days secs ds).seconds) := by
  have hs : secondsText (printedParts days secs ds).seconds =
      (natText (secs % 60) ++ (if ds = [] then [] else 46 :: ds)) ++ [83] := by
    unfold printedParts
    by_cases h0 : ds = [] <;> simp [secondsText, h0]
  have hsl := Bx.Lang.seq (frac_decimal (secs % 60) h) (Bx.lang_letter 83)
  rw [hs]
  unfold rxTimeInterval printedParts
  simp only
  by_cases hh : secs / 60 / 60 > 0
  · rw [if_pos hh, if_pos (by omega)]
    refine .altL ?_
    have := Bx.seqs_cons (natText_integer (secs / 60 / 60)) (Bx.seqs_cons (Bx.lang_letter 72) (Bx.seqs_cons
      (Bx.opt_some (.seq (natText_integer (secs / 60 % 60)) (Bx.lang_letter 77))) (Bx.seqs_cons (Bx.opt_some hsl) Bx.seqs_nil)))
    simpa [unitText] using this
  · rw [if_neg hh]
    by_cases hm : secs / 60 > 0
    · rw [if_pos hm]
      refine .altR (.altL ?_)
      have := Bx.seqs_cons (natText_integer (secs / 60 % 60)) (Bx.seqs_cons (Bx.lang_letter 77)
        (Bx.seqs_cons (Bx.opt_some hsl) Bx.seqs_nil))
      simpa [unitText] using this
    · rw [if_neg hm]
      refine .altR (.altR ?_)
      simpa [unitText] using hsl

theorem tokKind_day {s : Bytes} (hl : rxIntervalDay.Lang (tcQuoted (80 :: s))) (hc : 84 ∈ s ∨ 68 ∈ s) :
    tokKind (tcQuoted (80 :: s)) = some .intervalDay := by
  have hr := (Bx.run_iff _ _).2 hl
  have e : tcQuoted (80 :: s) = 39 :: 80 :: (s ++ [39]) := rfl
  rw [e] at hr ⊢
  have hy : rxIntervalYear.run (39 :: 80 :: (s ++ [39])) = false := by
    rcases hc with hc | hc
    · exact Bx.run_alpha 84 (by simp [hc]) rfl
    · exact Bx.run_alpha 68 (by simp [hc]) rfl
  rw [tokKind_letter 80 _ (by decide)]
  simp only [List.find?_cons, hy, hr, Option.map_some]

/-- **C108 (tokens of intervals).** From one second on, or with days and no time, the quoted text printed for an
interval is an interval token. -/
theorem C108_day_token (v : IntervalDay) (h : v.Proper)
    (hv : 1 ≤ v.seconds ∨ (v.seconds = 0 ∧ v.subseconds = 0 ∧ 1 ≤ v.days)) :
    ∃ s, intervalDayIso v = .ok s ∧ tokKind (tcQuoted s) = some .intervalDay := by
  obtain ⟨hp, ⟨d0, d1⟩, ⟨s0, s1⟩, ⟨u0, u1⟩⟩ := h
  let days : Option Bytes := if v.days > 0 then some (natText v.days.natAbs) else none
  have hdt : (if v.days > 0 then intText v.days ++ [68] else []) = unitText 68 days := by
    simp only [days, intText]
    split
    · rw [if_neg (by omega)]; rfl
    · rfl
  rcases hv with hv | ⟨hs, hu, hd⟩
  · have hn0 : 0 ≤ v.fracNanos := by
      unfold IntervalDay.fracNanos
      exact mul_nonneg u0 (by positivity)
    have hn1 : v.fracNanos < 1000000000 := by
      unfold IntervalDay.fracNanos
      have : (10 : Int) ^ v.precision * 10 ^ (9 - v.precision) = 1000000000 := by
        rw [← pow_add, Nat.add_sub_cancel' hp]; norm_num
      rw [← this]
      exact mul_lt_mul_of_pos_right u1 (by positivity)
    obtain ⟨N, hN⟩ := Int.eq_ofNat_of_zero_le hn0
    obtain ⟨S, hS⟩ := Int.eq_ofNat_of_zero_le s0
    have hlong : 1000000000 ≤ S * 1000000000 + N := by omega
    obtain ⟨ds, e1, e2, e3, e4⟩ := durationString_long hlong days
    have hq : (S * 1000000000 + N) / 1000000000 = S := by omega
    rw [hq] at e4
    have ht := timeInterval_lang S e1 days
    refine ⟨(printedParts days S ds).text, ?_, ?_⟩
    · unfold intervalDayIso
      simp only
      rw [if_pos (Or.inl (by omega)), subSeconds_spec u0 u1 hp, Res.ok_bind]
      rw [e4, hdt]
      have : v.subseconds * 10 ^ (9 - v.precision) = (N : Int) := hN
      rw [this, hS, wrap64_id (x := (S : Int) * 1000000000) (by omega) (by omega),
        wrap64_id (by omega) (by omega)]
      rfl
    · refine tokKind_day ?_ ?_
      · unfold rxIntervalDay rxQuoted tcQuoted
        by_cases hd : v.days > 0
        · have hdd : (printedParts days S ds).days = some (natText v.days.natAbs) := if_pos hd
          have := Bx.Lang.seq (Bx.lang_chr 39) (Bx.seqs_cons (Bx.lang_letter 80) (Bx.seqs_cons
            (.altL (b := .seq (.letter 84) rxTimeInterval) (Bx.seqs_cons (natText_integer v.days.natAbs) (Bx.seqs_cons
              (Bx.lang_letter 68) (Bx.seqs_cons (Bx.opt_some (.seq (Bx.lang_letter 84) ht)) Bx.seqs_nil))))
            (Bx.seqs_cons (Bx.lang_chr 39) Bx.seqs_nil)))
          rw [hdd]
          simpa [unitText, printedParts] using this
        · have hdd : (printedParts days S ds).days = none := if_neg hd
          have := Bx.Lang.seq (Bx.lang_chr 39) (Bx.seqs_cons (Bx.lang_letter 80) (Bx.seqs_cons
            (.altR (a := Bx.seqs [rxInteger, .letter 68, Bx.opt (.seq (.letter 84) rxTimeInterval)])
              (.seq (Bx.lang_letter 84) ht))
            (Bx.seqs_cons (Bx.lang_chr 39) Bx.seqs_nil)))
          rw [hdd]
          simpa [unitText, printedParts] using this
      · left
        have : (printedParts days S ds).time = true := rfl
        simp [this]
  · refine ⟨80 :: (natText v.days.natAbs ++ [68]), ?_, ?_⟩
    · unfold intervalDayIso
      simp only
      rw [if_neg (by omega), if_pos (by omega), intText, if_neg (by omega)]
    · refine tokKind_day ?_ (.inr (by simp))
      unfold rxIntervalDay rxQuoted tcQuoted
      have := Bx.Lang.seq (Bx.lang_chr 39) (Bx.seqs_cons (Bx.lang_letter 80) (Bx.seqs_cons
        (.altL (b := .seq (.letter 84) rxTimeInterval) (Bx.seqs_cons (natText_integer v.days.natAbs) (Bx.seqs_cons
          (Bx.lang_letter 68) (Bx.seqs_cons (Bx.opt_none (.seq (.letter 84) rxTimeInterval)) Bx.seqs_nil))))
        (Bx.seqs_cons (Bx.lang_chr 39) Bx.seqs_nil)))
      simpa using this

theorem writesInt_intText (p : Int32) : WritesInt (intText p.toInt) p.toInt := by
  have h1 := p.le_toInt; have h2 := p.toInt_lt
  exact ((atoi_iff _ _).1 (atoi_intText p.toInt ⟨by omega, by omega⟩)).1

theorem day_readBack (x : TcExt) (f : TcFmt) (q : Bool) (days secs p : Int32) (hp : 0 ≤ p.toInt ∧ p.toInt ≤ 9)
    (hd : 0 ≤ days.toInt) (hs : 1 ≤ secs.toInt ∨ secs.toInt = 0 ∧ 1 ≤ days.toInt) :
    ReadBack x f ⟨.prec .intervalDay (mark q) 0 p,
      .lit (.proto (.intervalDayToSecond ⟨days, secs, .precision p, 0⟩) (.prec .intervalDay (mark q) 0 p))⟩ := by
  have d2 := days.toInt_lt
  have s2 := secs.toInt_lt
  have hprop : (⟨days.toInt, secs.toInt, 0, p.toInt.toNat⟩ : IntervalDay).Proper :=
    ⟨by simp only; omega, ⟨hd, by simp only; omega⟩, ⟨by simp only; omega, by simp only; omega⟩,
      ⟨le_refl _, by simp only; positivity⟩⟩
  have hv : 1 ≤ secs.toInt ∨ (secs.toInt = 0 ∧ (0 : Int) = 0 ∧ 1 ≤ days.toInt) := by
    rcases hs with hs | hs
    · exact .inl hs
    · exact .inr ⟨hs.1, rfl, hs.2⟩
  obtain ⟨s, h1, h2⟩ := C108_day_token _ hprop hv
  obtain ⟨parts, hw, hsome, hiso, hdays, hsecs, hfrac, -, -⟩ := C97_text_partial _ hprop hv
  have hss : s = parts.text := by
    have := h1.symm.trans hiso
    injection this
  subst hss
  have hf0 : parts.frac = 0 := by
    have : parts.frac * 1000000000 = 0 := by rw [hfrac]; simp [IntervalDay.fracNanos]
    linarith
  refine ⟨tcQuoted parts.text, .prec .intervalDay q (some (intText p.toInt)),
    .intervalDay q (some (intText p.toInt)) (tcQuoted parts.text), ?_, ?_, ?_, ?_⟩
  · have htext : TcType.text (.prec .intervalDay q (some (intText p.toInt))) =
        (Ty.prec .intervalDay (mark q) 0 p).string := by
      rw [← mark_eq]
      simp [TcType.text, Ty.string, Ty.pieces, joined, queryMark_eq, intString, intChars, asciiText, prec_word,
        String.append_assoc]
    have h00 : (0 : Int64).toInt = 0 := by decide
    rw [htext]
    simp only [CaseLit.string, literalToString, Ty.quotedIso, if_true, ProtoVal.isoValueString, h00, h1, Res.ok_bind]
  · simp [TcType.parametersLex, tokKind_int]
  · simp [tcArgOf, h2]
  · have hdn : (decimalOpt parts.days : Int) = days.toInt := hdays
    have hsn : (parts.wholeSeconds : Int) = secs.toInt := hsecs
    have h := visitDay_whole x q _ p parts (writesInt_intText p) hw hsome hf0 (by omega) (by omega)
    rw [hdn, hsn, Int32.ofInt_toInt, Int32.ofInt_toInt] at h
    exact h

/-- **C108 (days and seconds), partial.** Intervals without parts of a second, from one second on or with days and no
time, of precision 0 to 9. Missing: other intervals (`C108_negation`, `C108_negation_subsecond`). -/
theorem C108_day_interval_partial (x : TcExt) (f : TcFmt) (q : Bool) (pt : Option Bytes) (text : Bytes) (c : CaseLit)
    (d : DaySecond) (t : Ty) (n : Nullability) (w : UInt32) (p : Int32)
    (h : visitTypedArgument x (.intervalDay q pt text) = .ok c) (hc : c.value = .lit (.proto (.intervalDayToSecond d) t))
    (ht : c.type = .prec .intervalDay n w p) (hp : 0 ≤ p.toInt ∧ p.toInt ≤ 9) (h0 : d.subseconds = 0)
    (hd : 0 ≤ d.days.toInt) (hs : 1 ≤ d.seconds.toInt ∨ d.seconds.toInt = 0 ∧ 1 ≤ d.days.toInt) : ReadBack x f c := by
  unfold visitTypedArgument at h
  simp only [visitArgument, Res.bind_eq_ok] at h
  obtain ⟨c', ⟨t', ht', l, hl, h1⟩, h2⟩ := h
  have hty : ∃ p', t' = .prec .intervalDay (mark q) 0 p' := by
    cases pt with
    | none => cases ht'; exact ⟨0, by rw [mark_eq]⟩
    | some pt =>
      simp only [tcType, Res.bind_eq_ok] at ht'
      obtain ⟨p', -, ht'⟩ := ht'
      cases ht'; exact ⟨p', by rw [mark_eq]⟩
  obtain ⟨p', rfl⟩ := hty
  cases h1
  simp only [newIntervalDayFromString, Res.bind_eq_ok, newLiteral] at hl
  obtain ⟨v, -, hl⟩ := hl
  cases hl
  simp only [CaseLit.updateType, Ty.getParameters, List.length_singleton, Nat.one_ne_zero, if_false, Lit.withType,
    newIntervalDayWithType, Res.ok_bind] at h2
  cases h2
  cases hc
  cases ht
  simp only at h0 hd hs
  rw [h0]
  exact day_readBack x f q _ _ p hp hd hs

/-- non-vacuity: `'PT1S'::interval_day<6>` -/
example (x : TcExt) : ∃ c d t n w p, visitTypedArgument x (.intervalDay false (some [54]) [39, 80, 84, 49, 83, 39]) = .ok c ∧
    c.value = .lit (.proto (.intervalDayToSecond d) t) ∧ c.type = .prec .intervalDay n w p ∧
    (0 ≤ p.toInt ∧ p.toInt ≤ 9) ∧ d.subseconds = 0 ∧ 0 ≤ d.days.toInt ∧ 1 ≤ d.seconds.toInt := by
  have hw : DayParts.Wf ⟨none, true, none, none, some ([49], none)⟩ :=
    ⟨nofun, nofun, nofun, (by intro w g e; cases e; unfold Digits; decide), (by intro w g e; cases e), nofun⟩
  have hv := visitDay_whole x false [54] 6 ⟨none, true, none, none, some ([49], none)⟩
    ⟨[54], ⟨by simp, by unfold Digits; decide⟩, .inl ⟨.inl rfl, by decide⟩⟩ hw (by simp [DayParts.Some])
    (by simp [DayParts.frac, DayParts.fracDigits, decimal]) (by decide) (by decide)
  exact ⟨_, _, _, _, _, _, hv, rfl, rfl, by decide, rfl, by decide, by decide⟩

/-- **C108 (floats), partial.** When Go's text of the number is a number token that is read as the same number. -/
theorem C108_float_partial (x : TcExt) (f : TcFmt) (q : Bool) (text : Bytes) (v : UInt64) (c : CaseLit)
    (hx : x.parseFloat text = .ok v)
    (hk : tokKind (f.float64 v) = some .integer ∨ tokKind (f.float64 v) = some .decimal ∨
      tokKind (f.float64 v) = some .float ∨ tokKind (f.float64 v) = some .nan)
    (hr : x.parseFloat (f.float64 v) = .ok v)
    (h : visitTypedArgument x (.float .fp64 q text) = .ok c) : ReadBack x f c := by
  have e := (C107_simple x q false text v hx).2.1
  have e' := (C107_simple x q false (f.float64 v) v hr).2.1
  rw [e] at h
  cases h
  refine ⟨f.float64 v, .prim .fp64 q, .float .fp64 q (f.float64 v), by cases q <;> rfl, rfl, ?_, e'⟩
  rcases hk with hk | hk | hk | hk <;> simp [tcArgOf, hk]

/-- non-vacuity: `1.5::fp64`, printed as `1.5` -/
example : tokKind [49, 46, 53] = some .decimal := by rfl

/-- **C108 (dates), partial.** When the text of the date is a date token that is read as the same date. -/
theorem C108_date_partial (x : TcExt) (f : TcFmt) (q : Bool) (text : Bytes) (d : Int32) (c : CaseLit)
    (h : visitTypedArgument x (.date q text) = .ok c) (t : Ty) (hc : c.value = .lit (.prim (.date d) t))
    (hk : tokKind (tcQuoted (f.date d)) = some .date)
    (hr : x.parseDate (rawString (tcQuoted (f.date d))) = .ok ⟨d.toInt * 86400, 0⟩) : ReadBack x f c := by
  unfold visitTypedArgument at h
  simp only [visitArgument, newDateFromString, newLiteral, newPrimLiteral, Res.ok_bind, Res.bind_eq_ok] at h
  obtain ⟨c', ⟨l, ⟨tm, -, hl⟩, h1⟩, h2⟩ := h
  cases hl; cases h1; cases h2
  cases hc
  have hd : IsInt32 ((Int32.ofInt (goDiv tm.unix 86400)).toInt) := by
    have h1 := (Int32.ofInt (goDiv tm.unix 86400)).le_toInt
    have h2 := (Int32.ofInt (goDiv tm.unix 86400)).toInt_lt
    exact ⟨by omega, by omega⟩
  obtain ⟨i, hi, hv⟩ := C107_date x q _ _ _ hr rfl hd
  have : i = Int32.ofInt (goDiv tm.unix 86400) := Int32.toInt_inj.1 hi
  subst this
  refine ⟨tcQuoted (f.date (Int32.ofInt (goDiv tm.unix 86400))), .prim .date q,
    .date q (tcQuoted (f.date (Int32.ofInt (goDiv tm.unix 86400)))), by cases q <;> rfl, rfl, by simp [tcArgOf, hk], ?_⟩
  rw [hv]
  cases q <;> rfl

/-- non-vacuity: `'1970-01-02'::date` -/
example : ∃ (x : TcExt) (f : TcFmt) (c : CaseLit) (t : Ty),
    visitTypedArgument x (.date false [39, 49, 57, 55, 48, 45, 48, 49, 45, 48, 50, 39]) = .ok c ∧
    c.value = .lit (.prim (.date 1) t) ∧ tokKind (tcQuoted (f.date 1)) = some .date ∧
    x.parseDate (rawString (tcQuoted (f.date 1))) = .ok ⟨(1 : Int32).toInt * 86400, 0⟩ :=
  ⟨⟨fun _ => .err, fun s => if s = [49, 57, 55, 48, 45, 48, 49, 45, 48, 50] then .ok ⟨86400, 0⟩ else .err, fun _ => .err,
      fun _ => 0, fun _ => .err, fun _ => (0, 0, 0)⟩,
    ⟨fun _ => [], fun _ => [], fun _ => [49, 57, 55, 48, 45, 48, 49, 45, 48, 50], fun _ _ => [], fun _ _ => [],
      fun _ _ => [], fun _ _ _ _ => [], fun _ => [], fun _ _ => [], fun _ => []⟩,
    _, _, rfl, rfl, by rfl, by rfl⟩

/-- **C108 (timestamps), partial.** When the text of the timestamp is a timestamp token that is read as the same
microseconds. -/
theorem C108_timestamp_partial (x : TcExt) (f : TcFmt) (q : Bool) (text : Bytes) (i : Int64) (c : CaseLit)
    (h : visitTypedArgument x (.timestamp q text) = .ok c) (t : Ty) (hc : c.value = .lit (.prim (.timestamp i) t))
    (hk : tokKind (tcQuoted (f.timestamp true i)) = some .timestamp) (tm : GoTime)
    (hr : x.parseTime (rawString (tcQuoted (f.timestamp true i))) = .ok tm) (hm : tm.unixMicro = i.toInt) :
    ReadBack x f c := by
  unfold visitTypedArgument at h
  simp only [visitArgument, newTimestampFromString, newLiteral, newPrimLiteral, Res.ok_bind, Res.bind_eq_ok] at h
  obtain ⟨c', ⟨l, ⟨tm', -, hl⟩, h1⟩, h2⟩ := h
  cases hl; cases h1; cases h2
  cases hc
  refine ⟨tcQuoted (f.timestamp true (Int64.ofInt tm'.unixMicro)), .prim .timestamp q,
    .timestamp q (tcQuoted (f.timestamp true (Int64.ofInt tm'.unixMicro))), by cases q <;> rfl, rfl,
    by simp [tcArgOf, hk], ?_⟩
  simp only [visitTypedArgument, visitArgument, newTimestampFromString, hr, Res.ok_bind, hm, Int64.ofInt_toInt, newLiteral,
    newPrimLiteral]
  rfl

/-- non-vacuity: the text of a timestamp is a timestamp token -/
example : tokKind (tcQuoted [49, 57, 55, 48, 45, 48, 49, 45, 48, 50, 84, 48, 48, 58, 48, 48, 58, 48, 48]) =
    some .timestamp := by rfl

theorem updateType_type {c c' : CaseLit} (h : c.updateType = .ok c') : c'.type = c.type := by
  obtain ⟨t, v⟩ := c
  unfold CaseLit.updateType at h
  simp only at h
  split at h
  · cases h; rfl
  · split at h
    · cases h; rfl
    · rw [Res.bind_eq_ok] at h
      obtain ⟨l, -, h⟩ := h
      cases h; rfl
    · cases h

/-- **C108 is false of timestamps with a time zone**: they are printed like those without, which is another token. -/
theorem C108_negation_timestamp_tz (x : TcExt) (f : TcFmt) (q : Bool) (text : Bytes) (i : Int64) (c : CaseLit) (t : Ty)
    (hc : c.value = .lit (.prim (.timestampTz i) t)) (ht : c.type = .prim .timestampTz (mark q) 0)
    (h : visitTypedArgument x (.timestampTz q text) = .ok c)
    (hk : tokKind (tcQuoted (f.timestampTz true i)) = some .timestamp) : ¬ ReadBack x f c := by
  unfold visitTypedArgument at h
  simp only [visitArgument, newTimestampTzFromString, newLiteral, newPrimLiteral, Res.ok_bind, Res.bind_eq_ok] at h
  obtain ⟨c', ⟨l, ⟨tm', -, hl⟩, h1⟩, h2⟩ := h
  cases hl; cases h1; cases h2
  cases hc
  rintro ⟨v, tr, a, h1, -, h2, h3⟩
  have hv : v = tcQuoted (f.timestampTz true (Int64.ofInt tm'.unixMicro)) := by
    have h4 := h1
    simp only [CaseLit.string, literalToString] at h4
    cases q <;> (injection h4 with h4; injection h4 with h4 h5; exact h4.symm)
  subst hv
  unfold tcArgOf at h2
  rw [hk] at h2
  split at h2 <;> first | (cases h2; done) | (rename_i e; cases e; done) | skip
  · injection h2 with h2
    subst h2
    simp only [visitTypedArgument, visitArgument, newTimestampFromString, newLiteral, newPrimLiteral, Res.bind_eq_ok] at h3
    obtain ⟨c', ⟨l, ⟨tm', -, hl⟩, h1⟩, h2⟩ := h3
    cases hl; cases h1; cases h2
  · injection h2 with h2
    subst h2
    simp only [visitTypedArgument, visitArgument, tcType, Res.bind_eq_ok] at h3
    obtain ⟨c', ⟨t, ht', h4⟩, h5⟩ := h3
    have h6 := updateType_type h5
    have h7 : ∃ k n v p, t = .prec k n v p := by
      rename_i pt _
      cases pt with
      | none => cases ht'
      | some pt =>
        simp only [tcType, Res.bind_eq_ok] at ht'
        obtain ⟨p, -, ht'⟩ := ht'
        cases ht'; exact ⟨_, _, _, _, rfl⟩
    obtain ⟨k, n, w, p, rfl⟩ := h7
    simp only [Res.bind_eq_ok] at h4
    obtain ⟨l, -, h4⟩ := h4
    cases h4
    cases h6

theorem getIntLiteral_readBack (f : TcFmt) {k : Prim} {n : Nullability} {text : Bytes} {l : Lit}
    (h : getIntLiteral text (.prim k n 0) = .ok l) :
    ∃ i, l.valueString f = .ok (intText i) ∧ getIntLiteral (intText i) (.prim k n 0) = .ok l := by
  unfold getIntLiteral at h
  rw [Res.bind_eq_ok] at h
  obtain ⟨v, -, h⟩ := h
  cases k <;> simp only [newLiteral, newPrimLiteral, reduceCtorEq] at h
  all_goals cases h
  · refine ⟨(Int8.ofInt v).toInt, rfl, ?_⟩
    have hr : IsInt64 (Int8.ofInt v).toInt := by
      have h1 := (Int8.ofInt v).le_toInt; have h2 := (Int8.ofInt v).toInt_lt; constructor <;> omega
    simp only [getIntLiteral, atoi_intText _ hr, Res.ok_bind, newLiteral, newPrimLiteral, Int8.ofInt_toInt]
  · refine ⟨(Int16.ofInt v).toInt, rfl, ?_⟩
    have hr : IsInt64 (Int16.ofInt v).toInt := by
      have h1 := (Int16.ofInt v).le_toInt; have h2 := (Int16.ofInt v).toInt_lt; constructor <;> omega
    simp only [getIntLiteral, atoi_intText _ hr, Res.ok_bind, newLiteral, newPrimLiteral, Int16.ofInt_toInt]
  · refine ⟨(Int32.ofInt v).toInt, rfl, ?_⟩
    have hr : IsInt64 (Int32.ofInt v).toInt := by
      have h1 := (Int32.ofInt v).le_toInt; have h2 := (Int32.ofInt v).toInt_lt; constructor <;> omega
    simp only [getIntLiteral, atoi_intText _ hr, Res.ok_bind, newLiteral, newPrimLiteral, Int32.ofInt_toInt]
  · refine ⟨(Int64.ofInt v).toInt, rfl, ?_⟩
    have hr : IsInt64 (Int64.ofInt v).toInt := by
      have h1 := (Int64.ofInt v).le_toInt; have h2 := (Int64.ofInt v).toInt_lt; constructor <;> omega
    simp only [getIntLiteral, atoi_intText _ hr, Res.ok_bind, newLiteral, newPrimLiteral, Int64.ofInt_toInt]

theorem simple_readBack (x : TcExt) (f : TcFmt) {k : Prim} {n : Nullability} {e : TcElem} {r : Option Lit}
    (hs : e.Simple k) (h : visitElem x (.prim k n 0) e = .ok r) :
    ∃ v w l, r = some v ∧ v.valueString f = .ok w ∧ tcLitOf w = some l ∧
      visitElem x (.prim k n 0) (.lit l) = .ok (some v) := by
  cases e with
  | list es => exact hs.elim
  | lit l =>
    cases l with
    | null =>
      cases h
      exact ⟨_, _, .null, rfl, rfl, rfl, rfl⟩
    | bool b =>
      cases hs
      simp only [visitElem, visitLiteral, newLiteral, newPrimLiteral, Res.ok_bind] at h
      cases h
      exact ⟨_, _, .bool b, rfl, rfl, by cases b <;> rfl, rfl⟩
    | numeric s =>
      have key : ∀ l, getIntLiteral s (.prim k n 0) = .ok l → ∃ w l', l.valueString f = .ok w ∧
          tcLitOf w = some (.numeric l') ∧ getIntLiteral l' (.prim k n 0) = .ok l := by
        intro l hl
        obtain ⟨i, h1, h2⟩ := getIntLiteral_readBack f hl
        exact ⟨_, intText i, h1, by simp [tcLitOf, tokKind_int], h2⟩
      rcases hs with rfl | rfl | rfl | rfl <;>
      · simp only [visitElem, visitLiteral, literalFromString, Res.bind_eq_ok] at h
        obtain ⟨l, hl, h⟩ := h
        cases h
        obtain ⟨w, l', h1, h2, h3⟩ := key l hl
        refine ⟨l, w, .numeric l', rfl, h1, h2, ?_⟩
        simp only [visitElem, visitLiteral, literalFromString, h3, Res.ok_bind]
    | _ => exact hs.elim

theorem simple_readBacks (x : TcExt) (f : TcFmt) {k : Prim} {n : Nullability} :
    ∀ {es : List TcElem} {vs : List Lit}, (∀ e ∈ es, e.Simple k) → visitElems x (.prim k n 0) es = .ok vs →
    ∃ ws ls, Lit.valueStrings f vs = .ok ws ∧ ws.mapM tcLitOf = some ls ∧
      visitElems x (.prim k n 0) (ls.map .lit) = .ok vs
  | [], vs, _, h => by
    cases h
    exact ⟨[], [], rfl, rfl, rfl⟩
  | e :: es, vs, hs, h => by
    simp only [visitElems, Res.bind_eq_ok] at h
    obtain ⟨r, h1, vs', h2, h⟩ := h
    obtain ⟨v, w, l, rfl, h3, h4, h5⟩ := simple_readBack x f (hs e (by simp)) h1
    obtain ⟨ws, ls, h6, h7, h8⟩ := simple_readBacks x f (fun e he => hs e (by simp [he])) h2
    cases h
    refine ⟨w :: ws, l :: ls, ?_, ?_, ?_⟩
    · simp only [Lit.valueStrings, h3, h6, Res.ok_bind]
    · simp [List.mapM_cons, h4, h7]
    · simp only [List.map_cons, visitElems, h5, h8, Res.ok_bind]

/-- **C108 (lists), partial.** Lists of integers and of booleans, with nulls among them. -/
theorem C108_list_partial (x : TcExt) (f : TcFmt) (q qe : Bool) (k : Prim) (es : List TcElem) (c : CaseLit)
    (hs : ∀ e ∈ es, e.Simple k) (h : visitTypedArgument x (.list q (.prim k qe) es) = .ok c) :
    ReadBackList x f c := by
  unfold visitTypedArgument at h
  simp only [visitArgument, visitListArg, tcType, Res.ok_bind, Res.bind_eq_ok] at h
  have hm : ∀ es, ¬ TcElem.marksAny (.prim k (getNullability qe) 0) es = true := by
    intro es hm
    exact (marksAny_intervals hm).elim
  rw [if_neg (hm _)] at h
  obtain ⟨c', ⟨vs, hv, h1⟩, h2⟩ := h
  obtain ⟨ws, ls, h6, h7, h8⟩ := simple_readBacks x f hs hv
  have key : ∃ lt, c' = ⟨.list (getNullability q) 0 (.prim k (getNullability qe) 0), .lit (.list vs lt)⟩ := by
    split at h1
    · rename_i h0
      cases h1
      have h0' : vs = [] := List.length_eq_zero_iff.1 h0
      subst h0'
      exact ⟨_, rfl⟩
    · rw [Res.bind_eq_ok] at h1
      obtain ⟨l, hl, h1⟩ := h1
      cases h1
      obtain ⟨t1, ts, -, -, rfl⟩ := (C11_newList _ _ _).1 hl
      exact ⟨_, rfl⟩
  have hread : visitTypedArgument x (.list q (.prim k qe) (ls.map .lit)) = .ok c := by
    unfold visitTypedArgument
    simp only [visitArgument, visitListArg, tcType, Res.ok_bind]
    rw [if_neg (hm _), h8, Res.ok_bind, h1, Res.ok_bind, h2]
  obtain ⟨lt, rfl⟩ := key
  refine ⟨ws, .list q (.prim k qe), _, ?_, rfl, ?_, hread⟩
  · simp [CaseLit.updateType, Ty.getParameters, Lit.withType] at h2
    subst h2
    simp only [CaseLit.string, literalToString, Lit.getType, literalToStringPlain, Lit.valueString, h6, Res.ok_bind]
    simp [Ty.quotedPlain, TcType.text, Ty.string, Ty.pieces, joined, queryMark_eq, prim_word, String.append_assoc]
  · simp [tcListArgOf, h7]

/-- non-vacuity: `[1, null]::list<i32?>` -/
example (x : TcExt) : (∃ c, visitTypedArgument x (.list false (.prim .i32 true) [.lit (.numeric [49]), .lit .null]) = .ok c) ∧
    ∀ e ∈ [TcElem.lit (.numeric [49]), TcElem.lit .null], e.Simple .i32 := by
  refine ⟨?_, ?_⟩
  · have h : newList [.prim (.int32 1) (.prim .i32 1 0), .null (.prim .i32 1 0)] false =
        .ok (.list [.prim (.int32 1) (.prim .i32 1 0), .null (.prim .i32 1 0)] (.list 2 0 (.prim .i32 1 0))) :=
      (C11_newList _ _ _).2 ⟨.prim .i32 1 0, [.prim .i32 1 0], rfl, by simp [Ty.equals], rfl⟩
    have h' : visitListArg x false (.prim .i32 true) [.lit (.numeric [49]), .lit .null] =
        (newList [.prim (.int32 1) (.prim .i32 1 0), .null (.prim .i32 1 0)] false >>= fun l =>
          .ok ⟨.list 2 0 (.prim .i32 1 0), .lit l⟩) := rfl
    rw [h, Res.ok_bind] at h'
    exact ⟨_, by simp only [visitTypedArgument, visitArgument, h', Res.ok_bind]; rfl⟩
  intro e he
  simp only [List.mem_cons, List.not_mem_nil, or_false] at he
  rcases he with rfl | rfl <;> simp [TcElem.Simple]

theorem readBack_text {x : TcExt} {f : TcFmt} {c : CaseLit} {v : Bytes} {w : String} (h : c.string f = .ok (v, w))
    (hr : ReadBack x f c) : ∃ t a, tcArgOf v t = some a ∧ visitTypedArgument x a = .ok c := by
  obtain ⟨v', t, a, h1, -, h2, h3⟩ := hr
  rw [h] at h1
  injection h1 with h1
  injection h1 with h1 h4
  subst h1
  exact ⟨t, a, h2, h3⟩

theorem tcArgOf_compound {v : Bytes} (t : TcType) (h : tokKind v = some .intervalCompound) : tcArgOf v t = none := by
  unfold tcArgOf
  rw [h]

theorem tcArgOf_date {v : Bytes} {t : TcType} {a : TcArg} (h : tokKind v = some .date) (ha : tcArgOf v t = some a) :
    ∃ q, a = .date q v := by
  unfold tcArgOf at ha
  rw [h] at ha
  split at ha <;> first | (cases ha; done) | (rename_i e; cases e; done) | skip
  cases ha
  exact ⟨_, rfl⟩

theorem tcArgOf_string {v : Bytes} {t : TcType} {a : TcArg} (h : tokKind v = some .string) (ha : tcArgOf v t = some a) :
    (∃ q, a = .string q v) ∨ ∃ k q l, a = .fixed k q l v := by
  unfold tcArgOf at ha
  rw [h] at ha
  split at ha <;> first | (cases ha; done) | (rename_i e; cases e; done) | skip
  · cases ha; exact .inl ⟨_, rfl⟩
  · cases ha; exact .inr ⟨_, _, _, rfl⟩

/-- **C108 is false of the code**: `'PT0S'::interval_day<6>` is printed as `'P'::interval_day<6>`, which is no
interval. -/
theorem C108_negation : ¬ C108_statement := by
  intro h
  let x : TcExt := ⟨fun _ => .err, fun _ => .err, fun _ => .err, fun _ => 0, fun _ => .err, fun _ => (0, 0, 0)⟩
  let f : TcFmt := ⟨fun _ => [], fun _ => [], fun _ => [], fun _ _ => [], fun _ _ => [], fun _ _ => [],
    fun _ _ _ _ => [], fun _ => [], fun _ _ => [], fun _ => []⟩
  have hw : DayParts.Wf ⟨none, true, none, none, some ([48], none)⟩ :=
    ⟨nofun, nofun, nofun, (by intro w g e; cases e; unfold Digits; decide), (by intro w g e; cases e), nofun⟩
  have hv := visitDay_whole x false [54] 6 ⟨none, true, none, none, some ([48], none)⟩
    ⟨[54], ⟨by simp, by unfold Digits; decide⟩, .inl ⟨.inl rfl, by decide⟩⟩ hw (by simp [DayParts.Some])
    (by simp [DayParts.frac, DayParts.fracDigits, decimal]) (by decide) (by decide)
  have hr := h x f [39, 80, 84, 48, 83, 39] (.prec .intervalDay false (some [54]))
    (.intervalDay false (some [54]) [39, 80, 84, 48, 83, 39]) _ (by rfl) hv
  obtain ⟨t, a, h1, -⟩ := readBack_text (v := [39, 80, 39]) (by rfl) hr
  rw [tcArgOf_compound t (by rfl)] at h1
  cases h1

/-- **C108 is false of the code** (parts of a second): half a second of precision 3 is printed as `'PT500MS'`, which is
a string. -/
theorem C108_negation_subsecond (x : TcExt) (f : TcFmt) :
    ¬ ReadBack x f ⟨.prec .intervalDay 2 0 3,
      .lit (.proto (.intervalDayToSecond ⟨0, 0, .precision 3, 500⟩) (.prec .intervalDay 2 0 3))⟩ := by
  intro hr
  have hi : intervalDayIso ⟨0, 0, 500, 3⟩ = .ok [80, 84, 53, 48, 48, 77, 83] := by decide +kernel
  have hp : ProtoVal.isoValueString f (.intervalDayToSecond ⟨0, 0, .precision 3, 500⟩) (.prec .intervalDay 2 0 3) =
      .ok [80, 84, 53, 48, 48, 77, 83] := hi
  obtain ⟨t, a, h1, h2⟩ := readBack_text (v := [39, 80, 84, 53, 48, 48, 77, 83, 39])
    (by simp only [CaseLit.string, literalToString, Ty.quotedIso, if_true, hp, Res.ok_bind]; rfl) hr
  have h4 := Res.bind_eq_ok.1 h2
  obtain ⟨c', h3, h4⟩ := h4
  have h5 := updateType_type h4
  rcases tcArgOf_string (by rfl) h1 with ⟨q, rfl⟩ | ⟨k, q, l, rfl⟩
  · cases h3; cases h5
  · simp only [visitArgument, tcType, Res.bind_eq_ok] at h3
    obtain ⟨t, ⟨n, -, ht⟩, h3⟩ := h3
    cases ht
    cases k <;> simp only [Res.bind_eq_ok] at h3 <;>
    · obtain ⟨l', -, h3⟩ := h3
      cases h3; cases h5

/-- **C108 is false of the code** (panic): `'PT1S'::interval_day<10>` is read, but printing it panics. -/
theorem C108_negation_panic (x : TcExt) (f : TcFmt) :
    ∃ c, visitTypedArgument x (.intervalDay false (some [49, 48]) [39, 80, 84, 49, 83, 39]) = .ok c ∧
      c.string f = .panic := by
  have hw : DayParts.Wf ⟨none, true, none, none, some ([49], none)⟩ :=
    ⟨nofun, nofun, nofun, (by intro w g e; cases e; unfold Digits; decide), (by intro w g e; cases e), nofun⟩
  have hv := visitDay_whole x false [49, 48] 10 ⟨none, true, none, none, some ([49], none)⟩
    ⟨[49, 48], ⟨by simp, by unfold Digits; decide⟩, .inl ⟨.inl rfl, by decide⟩⟩ hw (by simp [DayParts.Some])
    (by simp [DayParts.frac, DayParts.fracDigits, decimal]) (by decide) (by decide)
  exact ⟨_, hv, by rfl⟩

/-- **C108 is false of the code** (strings): `'\'\'2020-01-01\'\''::string`, with doubled quotes, is read as `2020-01-01`,
whose text is a date. -/
theorem C108_negation_string (x : TcExt) (f : TcFmt) :
    tcArgOf [39, 39, 39, 50, 48, 50, 48, 45, 48, 49, 45, 48, 49, 39, 39, 39] (.prim .string false) =
      some (.string false [39, 39, 39, 50, 48, 50, 48, 45, 48, 49, 45, 48, 49, 39, 39, 39]) ∧
    ∃ c, visitTypedArgument x (.string false [39, 39, 39, 50, 48, 50, 48, 45, 48, 49, 45, 48, 49, 39, 39, 39]) = .ok c ∧
      ¬ ReadBack x f c := by
  refine ⟨by rfl, _, rfl, ?_⟩
  intro hr
  obtain ⟨t, a, h1, h2⟩ := readBack_text (v := [39, 50, 48, 50, 48, 45, 48, 49, 45, 48, 49, 39])
    (by rfl) hr
  obtain ⟨q, rfl⟩ := tcArgOf_date (by rfl) h1
  obtain ⟨c', h3, h4⟩ := Res.bind_eq_ok.1 h2
  have h5 := updateType_type h4
  simp only [visitArgument, Res.bind_eq_ok] at h3
  obtain ⟨l, -, h3⟩ := h3
  cases h3; cases h5

/-- **C108 is false of the code** (bytes): `'ab'::fixedbinary<2>` is printed as `'0x6162'::fixedbinary<2>`, which is read
as six bytes. -/
theorem C108_negation_binary (x : TcExt) (f : TcFmt) :
    tcArgOf [39, 97, 98, 39] (.fixed .fixedBinary false [50]) = some (.fixed .fixedBinary false [50] [39, 97, 98, 39]) ∧
    ∃ c, visitTypedArgument x (.fixed .fixedBinary false [50] [39, 97, 98, 39]) = .ok c ∧ ¬ ReadBack x f c := by
  refine ⟨by rfl, ⟨.fixed .fixedBinary 2 0 2, .lit (.bytes .fixedBinary [97, 98] (.fixed .fixedBinary 2 0 2))⟩, rfl, ?_⟩
  intro hr
  obtain ⟨t, a, h1, h2⟩ := readBack_text (v := [39, 48, 120, 54, 49, 54, 50, 39])
    (by rfl) hr
  have hraw : rawString [39, 48, 120, 54, 49, 54, 50, 39] = [48, 120, 54, 49, 54, 50] := by rfl
  rcases tcArgOf_string (by rfl) h1 with ⟨q, rfl⟩ | ⟨k, q, l, rfl⟩
  · cases h2
  · unfold visitTypedArgument at h2
    simp only [visitArgument, tcType, hraw, Res.bind_eq_ok] at h2
    obtain ⟨c', ⟨t, ⟨n, -, ht⟩, h3⟩, h4⟩ := h2
    cases ht
    cases k
    · cases h3
      simp [CaseLit.updateType, Ty.getParameters, Lit.withType, Res.bind_eq_ok] at h4
    · simp only [Res.bind_eq_ok, newVarCharLiteral, newLiteral] at h3
      obtain ⟨l', h5, h3⟩ := h3
      cases h5; cases h3
      have := updateType_type h4
      cases this
    · cases h3
      simp [CaseLit.updateType, Ty.getParameters, Lit.withType, Res.bind_eq_ok] at h4

/-- **C108 is false of the code** (lists of strings): `['a']::list<string>` is printed as `[a]::list<string>`, which is
no list of literals. -/
theorem C108_negation_list (x : TcExt) (f : TcFmt) :
    ∃ c, visitTypedArgument x (.list false (.prim .string false) [.lit (.string [39, 97, 39])]) = .ok c ∧
      ¬ ReadBackList x f c := by
  refine ⟨_, rfl, ?_⟩
  rintro ⟨vs, t, a, h1, -, h2, -⟩
  have h3 : [91] ++ joinBytes [44, 32] vs ++ [93] = ([91, 97, 93] : Bytes) := by
    have h0 := h1
    injection h0 with h0
    injection h0 with h0 _
    exact h0.symm
  cases t <;> simp only [tcListArgOf, reduceCtorEq] at h2
  match vs, h3, h2 with
  | [], h3, _ => simp [joinBytes] at h3
  | [v], h3, h2 =>
    have h5 : v = [97] := by
      simp only [joinBytes, List.cons_append, List.nil_append, List.cons.injEq, true_and] at h3
      exact List.append_cancel_right (bs := [93]) h3
    subst h5
    have : tcLitOf [97] = none := by rfl
    simp [this] at h2
  | v :: w :: r, h3, _ =>
    have h4 := congrArg List.length h3
    simp [joinBytes] at h4
    omega

end Verif
