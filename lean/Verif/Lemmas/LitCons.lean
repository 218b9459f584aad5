import Verif.Spec.LitCons
import Verif.Lemmas.Literals
import Verif.Lemmas.Reread
import Verif.Lemmas.Time
/-! # Lemmas about the constructors of package `literal` -/

namespace Verif

theorem getNullability_eq (nullable : Bool) :
    getNullability nullable = if nullable then 1 else 2 := by cases nullable <;> rfl

theorem nullable_header (nullable : Bool) (t : Ty) (k : PLitKind)
    (h1 : t.nullability = getNullability nullable) (h2 : t.variation = 0) :
    litHeader t k = .mk nullable 0 k := by
  cases nullable <;> simp [litHeader, h1, h2, getNullability, NullabilityNullable, NullabilityRequired]

theorem int32Len_toInt (s : List UInt8) (h : s.length < 2 ^ 31) : (int32Len s).toInt = s.length := by
  unfold int32Len
  rw [Int32.toInt_ofNat_of_lt (by omega)]

theorem uint32Len (s : List UInt8) (h : s.length < 2 ^ 31) :
    (UInt32.ofNat s.length).toInt32.toInt = s.length ∧
    (UInt32.ofNat s.length).toInt32.toUInt32.toNat = s.length := by
  have e : (UInt32.ofNat s.length).toNat = s.length := by
    rw [UInt32.toNat_ofNat']; omega
  constructor
  · rw [UInt32.toInt32_ofNat', Int32.toInt_ofNat_of_lt h]
  · simp only [UInt32.toUInt32_toInt32, e]

theorem ofInt64_exact {v : Int} (h : IsInt64 v) : (Int64.ofInt v).toInt = v := by
  obtain ⟨h1, h2⟩ := h
  exact Int64.toInt_ofInt_of_le (by omega) (by omega)

theorem ediv_int64 {x D : Int} (hD : 0 < D) (hi : IsInt64 x) : IsInt64 (x / D) := by
  obtain ⟨i1, i2⟩ := hi
  constructor
  · exact Int.le_ediv_of_mul_le hD (by omega)
  · by_cases hx : 0 ≤ x
    · have := Int.ediv_le_self D hx; omega
    · have := Int.ediv_neg_of_neg_of_pos (a := x) (by omega) hD; omega

/-- Dividing by `D` and then, truncating, by `k` counts units of `D * k`. -/
theorem units_spec (x D k : Int) (hD : 0 < D) (hk : 0 < k) (hi : IsInt64 x) (h : 0 ≤ x ∨ k = 1) :
    (Int64.ofInt (goDiv (wrap64 (x / D)) k)).toInt * (D * k) ≤ x ∧
    x < ((Int64.ofInt (goDiv (wrap64 (x / D)) k)).toInt + 1) * (D * k) ∧
    (0 ≤ x → 0 ≤ (Int64.ofInt (goDiv (wrap64 (x / D)) k)).toInt) := by
  rw [wrap64_id (ediv_int64 hD hi).1 (ediv_int64 hD hi).2]
  have e : goDiv (x / D) k = x / (D * k) := by
    rcases h with h | rfl
    · rw [goDiv_eq _ _ hk, if_pos (Int.ediv_nonneg h (Int.le_of_lt hD)), Int.ediv_ediv_of_nonneg (Int.le_of_lt hD)]
    · simp [goDiv]
  have hDk : 0 < D * k := Int.mul_pos hD hk
  have hv : IsInt64 (x / (D * k)) := ediv_int64 hDk hi
  rw [e, ofInt64_exact hv]
  refine ⟨Int.ediv_mul_le _ (by omega), Int.lt_ediv_add_one_mul_self _ hDk, ?_⟩
  intro hx
  exact Int.ediv_nonneg hx (Int.le_of_lt hDk)

/-- The value of a time at a precision counts its whole units, unless the time is before 1970 and the
precision is none of the SI ones. -/
theorem timeValue_spec (t : GoTime) (p : Int32) (hp : ValidPrecision p) (ht : t.Normal)
    (hi : IsInt64 t.nanos)
    (hq : 0 ≤ t.nanos ∨ p.toInt = 0 ∨ p.toInt = 3 ∨ p.toInt = 6 ∨ p.toInt = 9) :
    ∃ v, timeValue t p = .ok v ∧ WholeUnits p.toInt t.nanos v.toInt ∧ (0 ≤ t.nanos → 0 ≤ v.toInt) := by
  obtain ⟨hp0, hp9⟩ := hp
  obtain ⟨n, hn⟩ : ∃ n : Nat, p.toInt = n := ⟨p.toInt.toNat, by omega⟩
  have hn9 : n ≤ 9 := by omega
  have hneg : ¬ p < 0 := by
    rw [Int32.lt_iff_toInt_lt]; simp only [Int32.toInt_zero]; omega
  rw [hn] at hq ⊢
  unfold timeValue
  rw [if_neg hneg, hn, Int.toNat_natCast, getTime_spec t ht n hn9, Res.ok_bind]
  generalize t.nanos = x at *
  refine ⟨_, rfl, ?_⟩
  have h10 : n = 0 ∨ n = 1 ∨ n = 2 ∨ n = 3 ∨ n = 4 ∨ n = 5 ∨ n = 6 ∨ n = 7 ∨ n = 8 ∨ n = 9 := by
    omega
  have key : ∀ D k v, 0 < D → 0 < k → (0 ≤ x ∨ k = 1) → v = goDiv (wrap64 (x / D)) k →
      (D * k : Int) = 10 ^ (9 - (n : Int)).toNat →
      WholeUnits n x (Int64.ofInt v).toInt ∧ (0 ≤ x → 0 ≤ (Int64.ofInt v).toInt) := by
    intro D k v hD hk h hv hu
    obtain ⟨h1, h2, h3⟩ := units_spec x D k hD hk hi h
    subst hv
    exact ⟨⟨D * k, hu, h1, h2⟩, h3⟩
  rcases h10 with rfl | rfl | rfl | rfl | rfl | rfl | rfl | rfl | rfl | rfl
  · refine key 1000000000 1 _ (by decide) (by decide) (Or.inr rfl) ?_ (by decide)
    obtain ⟨i1, i2⟩ := hi
    rw [if_pos rfl, wrap64_id (by omega) (by omega)]
    simp [goDiv]
  · exact key 1000000 100 _ (by decide) (by decide) (by simp at hq; omega) (by simp [siPrecision]) (by decide)
  · exact key 1000000 10 _ (by decide) (by decide) (by simp at hq; omega) (by simp [siPrecision]) (by decide)
  · exact key 1000000 1 _ (by decide) (by decide) (Or.inr rfl) (by simp [siPrecision]) (by decide)
  · exact key 1000 100 _ (by decide) (by decide) (by simp at hq; omega) (by simp [siPrecision]) (by decide)
  · exact key 1000 10 _ (by decide) (by decide) (by simp at hq; omega) (by simp [siPrecision]) (by decide)
  · exact key 1000 1 _ (by decide) (by decide) (Or.inr rfl) (by simp [siPrecision]) (by decide)
  · exact key 1 100 _ (by decide) (by decide) (by simp at hq; omega) (by simp [siPrecision]) (by decide)
  · exact key 1 10 _ (by decide) (by decide) (by simp at hq; omega) (by simp [siPrecision]) (by decide)
  · exact key 1 1 _ (by decide) (by decide) (Or.inr rfl) (by simp [siPrecision]) (by decide)

mutual
theorem precisionsOk_erase : ∀ t : Ty, t.erase.PrecisionsOk ↔ t.PrecisionsOk
  | .struct n v ts => by simp only [Ty.erase, Ty.PrecisionsOk, precisionsOk_eraseList ts]
  | .func n ps r => by
      simp only [Ty.erase, Ty.PrecisionsOk, precisionsOk_eraseList ps, precisionsOk_erase r]
  | .list n v t => by simp only [Ty.erase, Ty.PrecisionsOk, precisionsOk_erase t]
  | .map n v k e => by
      simp only [Ty.erase, Ty.PrecisionsOk, precisionsOk_erase k, precisionsOk_erase e]
  | .udt n v r ps => by simp only [Ty.erase, Ty.PrecisionsOk, precisionsOk_eraseParams ps]
  | .intervalCompound .. => by simp only [Ty.erase, Ty.PrecisionsOk]
  | .prim .. => by simp only [Ty.erase]
  | .prec .. => by simp only [Ty.erase]
  | .fixed .. => by simp only [Ty.erase]
  | .decimal .. => by simp only [Ty.erase]
  | .intervalYearToMonth .. => by simp only [Ty.erase]
  | .enum .. => by simp only [Ty.erase]
theorem precisionsOk_eraseList : ∀ ts : List Ty,
    Ty.PrecisionsOkList (Ty.eraseList ts) ↔ Ty.PrecisionsOkList ts
  | [] => by simp only [Ty.eraseList]
  | t :: ts => by
      simp only [Ty.eraseList, Ty.PrecisionsOkList, precisionsOk_erase t, precisionsOk_eraseList ts]
theorem precisionsOk_eraseParam : ∀ p : TParam, p.erase.PrecisionsOk ↔ p.PrecisionsOk
  | .dataType t => by simp only [TParam.erase, TParam.PrecisionsOk, precisionsOk_erase t]
  | .nil => by simp only [TParam.erase]
  | .null => by simp only [TParam.erase]
  | .boolean _ => by simp only [TParam.erase]
  | .integer _ => by simp only [TParam.erase]
  | .enum _ => by simp only [TParam.erase]
  | .string _ => by simp only [TParam.erase]
theorem precisionsOk_eraseParams : ∀ ps : List TParam,
    TParam.PrecisionsOkList (TParam.eraseList ps) ↔ TParam.PrecisionsOkList ps
  | [] => by simp only [TParam.eraseList]
  | p :: ps => by
      simp only [TParam.eraseList, TParam.PrecisionsOkList, precisionsOk_eraseParam p,
        precisionsOk_eraseParams ps]
end

theorem made_of {c : LitCall} {nullable : Bool} {l : Lit} {t : Ty} {k : PLitKind}
    (h1 : l.getType = .ok t) (h2 : literalToProto l = .ok (litHeader t k))
    (h3 : t.nullability = getNullability nullable) (h4 : t.variation = 0)
    (h5 : c.TypedAs (getNullability nullable) t) (h6 : c.Says k) : c.Made nullable l := by
  refine ⟨⟨t, h1, ?_⟩, k, ?_, h6⟩
  · rw [← getNullability_eq]; exact h5
  · rw [h2, nullable_header nullable t k h3 h4]

theorem nanos_of_clock (tm : ZonedTime) (h : tm.Normal) :
    (sinceMidnight tm).Normal ∧ IsInt64 (sinceMidnight tm).nanos ∧ 0 ≤ (sinceMidnight tm).nanos ∧
    (tm.offset = 0 → (sinceMidnight tm).nanos = tm.clock) := by
  obtain ⟨⟨h1, h2⟩, -⟩ := h
  refine ⟨⟨h1, h2⟩, ?_, ?_, ?_⟩
  · simp only [sinceMidnight, GoTime.nanos, IsInt64]; omega
  · simp only [sinceMidnight, GoTime.nanos]; omega
  · intro ho; simp only [sinceMidnight, GoTime.nanos, ZonedTime.clock, ho, Int.add_zero]

theorem micros_of_time (tm : ZonedTime) (h : tm.InNanos) :
    WholeUnits 6 tm.instant.nanos (Int64.ofInt tm.instant.unixMicro).toInt := by
  obtain ⟨⟨hn, -⟩, hi⟩ := h
  obtain ⟨v, h1, h2, -⟩ := timeValue_spec tm.instant 6 ⟨by decide, by decide⟩ hn hi
    (Or.inr (Or.inr (Or.inr (Or.inl (by decide)))))
  have e : timeValue tm.instant 6 = .ok (Int64.ofInt tm.instant.unixMicro) := rfl
  rw [e] at h1
  cases h1
  exact h2

end Verif
