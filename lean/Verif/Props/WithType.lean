import Verif.Model.WithType
import Verif.Spec.WithType
import Verif.Props.Decimal
import Verif.Lemmas.WithType
/-!
# Property of `WithType` (C98)
-/

namespace Verif

/-- **C98 (full statement, false).** A literal that is given another type has that type, keeps its
value, and the value belongs to the type. -/
def C98_statement : Prop :=
  ∀ (l : Lit) (t : Ty) (l' : Lit) (v : LitValue), l.value = some v → l.withType t = .ok l' →
    l'.getType = .ok t ∧ l'.value = some v ∧ v.Fits t

/-- **C98 (type).** The new literal has exactly the type asked for; a decimal loses the type variation and
is required unless nullable was asked for. -/
theorem C98_type_partial (l : Lit) (t : Ty) (l' : Lit) (h : l.withType t = .ok l') :
    l'.getType = .ok t.ofLiteral := by
  unfold Lit.withType at h
  split at h
  · split at h
    · cases h; rfl
    · cases h
  · split at h
    · cases h; rfl
    · cases h
  · split at h
    · cases h; rfl
    · cases h
  · split at h
    · cases h; rfl
    · cases h; rfl
    · cases h
  · rename_i v t0
    split at h
    · rename_i n va s p
      unfold newDecimalWithType at h
      split at h
      · split at h
        · rename_i n0 v0 s0 p0 b
          split at h
          · cases h
          rw [Res.bind_eq_ok] at h
          obtain ⟨⟨b', p', s'⟩, h1, h2⟩ := h
          obtain ⟨rfl, rfl⟩ := modifyDecimal_params h1
          simp only [newLiteral, Int32.ofInt_toInt] at h2
          split at h2
          · cases h2
          cases h2
          simp only [Lit.getType, Ty.ofLiteral, getNullability]
          by_cases hn : n = NullabilityNullable
          · simp [hn]
          · simp [hn]
        · cases h
      · cases h
    · unfold newVarCharWithType at h
      split at h
      · split at h
        · split at h
          · cases h
          · cases h; rfl
        · cases h
      · cases h
    · unfold newIntervalDayWithType at h
      split at h
      · split at h
        · cases h; rfl
        · cases h
      · cases h
    · unfold newTimeWithType at h
      split at h
      · split at h
        · cases h
        · split at h
          · split at h
            · cases h
            · rw [Res.bind_eq_ok] at h
              obtain ⟨r, -, h2⟩ := h
              cases h2; rfl
          · cases h
      · cases h
    · cases h
  · cases h


/-- **C98 (value), partial.** If the value of a literal belongs to the type, the new literal has the same
value. Missing: a value that does not belong to the type is not always refused (`C98_negation` and its
siblings), and numbers outside the range of the computation (`Lit.InRange`). -/
theorem C98_value_partial (l : Lit) (t : Ty) (l' : Lit) (v : LitValue) (hv : l.value = some v)
    (hf : v.Fits t) (hr : l.InRange t) (h : l.withType t = .ok l') : l'.value = some v := by
  unfold Lit.withType at h
  split at h
  · split at h
    · cases h
      unfold Lit.value at hv
      split at hv <;> simp_all [Lit.value]
    · cases h
  · split at h
    · cases h
      unfold Lit.value at hv
      split at hv <;> simp_all [Lit.value]
      subst hv
      exact hf.elim
    · cases h
  · split at h
    · cases h
      unfold Lit.value at hv
      split at hv <;> simp_all [Lit.value]
    · cases h
  · split at h
    · cases h; exact hv
    · cases h; exact hv
    · cases h
  · rename_i v0 t0
    split at h
    · rename_i n va s p
      unfold newDecimalWithType at h
      split at h
      · split at h
        · rename_i n0 v0 s0 p0 b
          obtain ⟨hb, hs1, hs2⟩ := hr
          rw [if_neg (by omega)] at h
          rw [Res.bind_eq_ok] at h
          obtain ⟨⟨b', p', s'⟩, h1, h2⟩ := h
          have hm := C08_same_value _ _ _ _ (by simp [hb]) ⟨hs1, hs2⟩
            ⟨Int32.le_toInt _, by have := Int32.toInt_lt s; omega⟩ _ _ _ h1
          obtain ⟨rfl, rfl, hl, -, -, -, hval, -⟩ := hm
          simp only [newLiteral, hl, Int32.ofInt_toInt] at h2
          simp only [ne_eq, not_true_eq_false, if_false, Res.ok.injEq] at h2
          subst h2
          rw [← hv]
          simp only [Lit.value]
          rw [hval, List.take_of_length_le (by omega)]
        · cases h
      · cases h
    · unfold newVarCharWithType at h
      split at h
      · split at h
        · split at h
          · cases h
          · cases h; rw [← hv]; rfl
        · cases h
      · cases h
    · unfold newIntervalDayWithType at h
      split at h
      · split at h
        · rename_i q t1 na va pa pv d
          cases h
          simp only [Lit.value, Option.some.injEq] at hv
          subst hv
          obtain ⟨hmode, hp, hq, hrange⟩ := hr
          have hn : d.nanos = d.subseconds.toInt * 10 ^ (9 - d.getPrecision.toInt.toNat) := by
            unfold DaySecond.nanos DaySecond.getPrecision
            cases hm : d.mode with
            | unset => simp
            | microseconds m => exact absurd hm (hmode m)
            | precision p => rfl
          simp only [LitValue.Fits, hn] at hf
          obtain ⟨h1, h2⟩ := interval_value
            ⟨d.days.toInt, d.seconds.toInt, d.subseconds.toInt, d.getPrecision.toInt.toNat⟩ q.toInt.toNat
            (int64_isInt64 _) (by dsimp only; omega) (by omega) hrange hf
          simp only [Lit.value, Option.some.injEq, LitValue.interval.injEq]
          refine ⟨Int32.ofInt_toInt _ ▸ rfl, Int32.ofInt_toInt _ ▸ rfl, ?_⟩
          simp only [DaySecond.nanos] at hn ⊢
          rw [int64_ofInt_toInt _ h1, h2]
          exact hn.symm
        · cases h
      · cases h
    · rename_i k n1 v1 q hk
      unfold newTimeWithType at h
      split at h
      · rename_i k' n0 vv0 p
        split at h
        · cases h
        · rename_i hkk
          simp only [ne_eq, not_not] at hkk
          subst hkk
          split at h
          · rename_i i
            split at h
            · cases h
            · rw [Res.bind_eq_ok] at h
              obtain ⟨r, h1, h2⟩ := h
              cases h2
              have hval : ∀ (j : Int64) (m : Nullability) (w : UInt32) (x : Int32),
                  (Lit.proto (.int64 j) (.prec k' m w x)).value
                    = some (.nanos (j.toInt * 10 ^ (9 - x.toInt.toNat))) := by
                intro j m w x
                cases k' <;> first | rfl | exact (hk rfl).elim
              rw [hval] at hv ⊢
              cases hv
              obtain ⟨hp, hq, hrange⟩ := hr
              obtain ⟨r', h3, h4, h5⟩ := changeTime_value i.toInt p.toInt.toNat q.toInt.toNat
                (int64_isInt64 _) (by omega) (by omega) hrange (by cases k' <;> exact hf)
              rw [h3] at h1
              cases h1
              rw [int64_ofInt_toInt _ h4, h5]
          · cases h
      · cases h
    · cases h
  · cases h


/-- **C98 (refusal), partial.** Character values of variable length and decimals that do not belong to the
type are refused: whatever is accepted fits. Missing: the other kinds of literals. -/
theorem C98_refusal_partial (pv : ProtoVal) (t0 t : Ty) (l' : Lit) (v : LitValue)
    (hk : (∃ n w len, t = .fixed .varChar n w len) ∨ ∃ n w s p, t = .decimal n w s p)
    (hv : (Lit.proto pv t0).value = some v) (hr : (Lit.proto pv t0).InRange t)
    (h : (Lit.proto pv t0).withType t = .ok l') : v.Fits t := by
  rcases hk with ⟨n, w, len, rfl⟩ | ⟨n, w, s, p, rfl⟩
  · simp only [Lit.withType, newVarCharWithType] at h
    split at h
    · split at h
      · split at h
        · cases h
        · cases hv
          simp only [LitValue.Fits]
          omega
      · cases h
    · cases h
  · simp only [Lit.withType, newDecimalWithType] at h
    split at h
    · split at h
      · rename_i n0 v0 s0 p0 b
        obtain ⟨hb, hs1, hs2⟩ := hr
        rw [if_neg (by omega)] at h
        rw [Res.bind_eq_ok] at h
        obtain ⟨⟨b', p', s'⟩, h1, h2⟩ := h
        obtain ⟨-, -, -, -, -, -, hval, hdig⟩ := C08_same_value _ _ _ _ (by simp [hb]) ⟨hs1, hs2⟩
          ⟨Int32.le_toInt _, by have := Int32.toInt_lt s; omega⟩ _ _ _ h1
        cases hv
        rw [List.take_of_length_le (by omega)] at hval
        exact ⟨signed16 b', hdig, by rw [← hval]; rfl⟩
      · cases h
    · cases h

/-- **C98 (success), partial.** A value that belongs to a type of its kind is accepted. Missing: zero in a
decimal type without integral digits (C08). -/
theorem C98_success_partial (l : Lit) (t : Ty) (v : LitValue) (hv : l.value = some v) (hf : v.Fits t)
    (hk : l.OfKind t) (hr : l.InRange t) : ∃ l', l.withType t = .ok l' := by
  unfold Lit.OfKind at hk
  split at hk
  · exact ⟨_, rfl⟩
  · exact ⟨_, rfl⟩
  · exact ⟨_, rfl⟩
  · exact ⟨_, rfl⟩
  · cases hv
    simp only [LitValue.Fits] at hf
    exact ⟨_, by simp only [Lit.withType, newVarCharWithType]; rw [if_neg (by omega)]⟩
  · rename_i b n0 v0 s0 p0 n w s p
    obtain ⟨hb, hs1, hs2⟩ := hr
    cases hv
    obtain ⟨m, hm1, hm2⟩ := hf
    have hrange : -2147483648 ≤ s.toInt ∧ s.toInt ≤ 2147483647 :=
      ⟨Int32.le_toInt _, by have := Int32.toInt_lt s; omega⟩
    obtain ⟨hk1, hk2, hk3, hk4⟩ := hk
    have hok : ∃ r, modifyDecimal b s0.toInt p.toInt s.toInt = .ok r := by
      by_cases h0 : signed16 b = 0
      · exact (C08_zero b _ _ _ hb ⟨hs1, hs2⟩ hrange h0).1 ⟨hk1, hk4.resolve_left (absurd h0), hk3⟩
      · exact (C08_succeeds_iff b _ _ _ hb ⟨hs1, hs2⟩ hrange h0).1 ⟨hk1, hk2, hk3, m, hm1, hm2.symm⟩
    obtain ⟨⟨b', p', s'⟩, hok⟩ := hok
    obtain ⟨-, -, hl, -⟩ := C08_same_value _ _ _ _ hb ⟨hs1, hs2⟩ hrange _ _ _ hok
    refine ⟨.proto (.bytes b') (.decimal (getNullability (n == NullabilityNullable)) 0 (Int32.ofInt s')
      (Int32.ofInt p')), ?_⟩
    simp only [Lit.withType, newDecimalWithType]
    rw [if_neg (by omega), List.take_of_length_le (by omega), hok]
    simp [Res.ok_bind, newLiteral, hl]
  · rename_i i k n0 v0 p k' n w q
    obtain ⟨rfl, hkd⟩ := hk
    obtain ⟨hp, hq, hrange⟩ := hr
    have hval : v = .nanos (i.toInt * 10 ^ (9 - p.toInt.toNat)) := by
      cases k <;> first | exact absurd rfl hkd | (cases hv; rfl)
    subst hval
    obtain ⟨r, h3, -, -⟩ := changeTime_value i.toInt p.toInt.toNat q.toInt.toNat
      (int64_isInt64 _) (by omega) (by omega) hrange (by cases k <;> exact hf)
    refine ⟨.proto (.int64 (Int64.ofInt r)) (.prec k n w q), ?_⟩
    have hpq : ¬ (p < 0 ∨ q < 0) := by
      rw [Int32.lt_iff_toInt_lt, Int32.lt_iff_toInt_lt]; simp only [Int32.toInt_zero]; omega
    cases k <;> first
      | exact absurd rfl hkd
      | (simp only [Lit.withType, newTimeWithType, ne_eq, not_true_eq_false, if_false]
         rw [if_neg hpq, h3]; rfl)
  · exact ⟨_, rfl⟩
  · exact hk.elim

/-- **C98 is false of the code**: three characters are accepted as `fixedchar<2>`. -/
theorem C98_negation : ¬ C98_statement := by
  intro h
  have h1 := (h (.prim (.fixedChar [97, 98, 99]) (.fixed .fixedChar 2 0 3)) (.fixed .fixedChar 2 0 2) _ _
    rfl rfl).2.2
  revert h1
  simp [LitValue.Fits]

/-- **C98 is false of the code** (kind): a struct of a number and a string becomes a list of numbers. -/
theorem C98_negation_struct :
    ∃ (l l' : Lit) (v : LitValue), l.value = some v ∧
      l.withType (.list 2 0 (.prim .i32 2 0)) = .ok l' ∧ l'.value ≠ some v ∧
      ∃ vs, l'.value = some (.elements vs) ∧ ∃ e ∈ vs, e.getType ≠ .ok (.prim .i32 2 0) := by
  refine ⟨.struct [.prim (.int32 1) (.prim .i32 2 0), .prim (.string []) (.prim .string 2 0)]
    (.struct 2 0 [.prim .i32 2 0, .prim .string 2 0]), _, _, rfl, rfl, ?_, _, rfl,
    .prim (.string []) (.prim .string 2 0), by simp, ?_⟩
  · simp [Lit.value]
  · simp [Lit.getType]

/-- **C98 is false of the code** (microseconds): an interval of 5 microseconds written with the deprecated
field becomes an interval of length zero. -/
theorem C98_negation_micros :
    ∃ (l l' : Lit), l.value = some (.interval 0 0 5000) ∧
      l.withType (.prec .intervalDay 2 0 6) = .ok l' ∧ l'.value = some (.interval 0 0 0) := by
  refine ⟨.proto (.intervalDayToSecond ⟨0, 0, .microseconds 5, 0⟩) (.prec .intervalDay 2 0 6), _, ?_, rfl, ?_⟩
  · simp only [Lit.value, Option.some.injEq, LitValue.interval.injEq]; decide +kernel
  · simp only [Lit.value, Option.some.injEq, LitValue.interval.injEq]; decide +kernel

/-- **C98 is false of the code** (type): the variation of a decimal type is dropped. -/
theorem C98_negation_variation :
    ∃ (l l' : Lit), l.withType (.decimal 2 7 1 3) = .ok l' ∧ l'.getType = .ok (.decimal 2 0 1 3) := by
  refine ⟨.proto (.bytes (15 :: List.replicate 15 0)) (.decimal 2 0 0 2),
    .proto (.bytes (150 :: List.replicate 15 0)) (.decimal 2 0 1 3), ?_, rfl⟩
  have hm : modifyDecimal ((15 :: List.replicate 15 0).take 16) (Int32.toInt 0) (Int32.toInt 3)
      (Int32.toInt 1) = .ok (150 :: List.replicate 15 0, 3, 1) := by decide +kernel
  simp only [Lit.withType, newDecimalWithType]
  rw [if_neg (by simp), hm]
  rfl

/-- non-vacuity of the hypotheses: 1.5 as `decimal<3,1>`, 2 s as microseconds, `'ab'` as `varchar<4>` -/
example :
    (Lit.proto (.int64 2) (.prec .precisionTime 2 0 0)).InRange (.prec .precisionTime 2 0 6) ∧
    (LitValue.nanos 2000000000).Fits (.prec .precisionTime 2 0 6) ∧
    (Lit.proto (.int64 2) (.prec .precisionTime 2 0 0)).OfKind (.prec .precisionTime 2 0 6) ∧
    (Lit.proto (.int64 2) (.prec .precisionTime 2 0 0)).value = some (.nanos 2000000000) := by
  refine ⟨?_, ?_, ?_, rfl⟩
  · simp [Lit.InRange, IsInt64, siPrecision]
  · simp [LitValue.Fits]
  · simp [Lit.OfKind]

example : (Lit.proto (.string [97, 98]) (.fixed .varChar 2 0 2)).OfKind (.fixed .varChar 2 0 4) ∧
    (LitValue.chars [97, 98]).Fits (.fixed .varChar 2 0 4) := by
  simp [Lit.OfKind, LitValue.Fits]

end Verif
