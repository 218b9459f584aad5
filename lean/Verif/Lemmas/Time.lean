import Verif.Spec.Time
import Verif.Lemmas.Decimal
/-! # Helper lemmas about times and intervals -/

namespace Verif

theorem goDiv_eq (a : Int) (k : Int) (_hk : 0 < k) :
    goDiv a k = if 0 ≤ a then a / k else -((-a) / k) := by
  unfold goDiv
  split
  · rw [Int.tdiv_eq_ediv_of_nonneg (by omega)]
  · have : a = -(-a) := by omega
    rw [this, Int.neg_tdiv, Int.tdiv_eq_ediv_of_nonneg (by omega)]
    simp

theorem goMod_eq (a : Int) (k : Int) (_hk : 0 < k) :
    goMod a k = if 0 ≤ a then a % k else -((-a) % k) := by
  unfold goMod
  split
  · rw [Int.tmod_eq_emod_of_nonneg (by omega)]
  · have : a = -(-a) := by omega
    rw [this, Int.neg_tmod, Int.tmod_eq_emod_of_nonneg (by omega)]
    simp

theorem wrap64_spec (x : Int) : ∃ q : Int, wrap64 x = x - q * 18446744073709551616 ∧
    -9223372036854775808 ≤ wrap64 x ∧ wrap64 x ≤ 9223372036854775807 := by
  unfold wrap64
  refine ⟨Int.bdiv x (2 ^ 64), ?_, ?_, ?_⟩
  · have := Int.bmod_add_bdiv x (2 ^ 64)
    omega
  · have := Int.le_bmod (x := x) (m := 2 ^ 64) (by decide)
    omega
  · have := Int.bmod_lt (x := x) (m := 2 ^ 64) (by decide)
    omega

theorem timeUnix_norm (sec nsec : Int) (hs : -9223372036854775807 ≤ sec)
    (hs2 : sec ≤ 9223372036854775807) (hn : -1000000000 < nsec) (hn2 : nsec < 1000000000) :
    (timeUnix sec nsec).nanos = sec * 1000000000 + nsec ∧ (timeUnix sec nsec).Normal := by
  unfold timeUnix
  by_cases h : nsec < 0 ∨ nsec ≥ 1000000000
  · have hd : goDiv nsec 1000000000 = 0 := by rw [goDiv_eq _ _ (by omega)]; split <;> omega
    simp only [h, if_true, hd, Int.zero_mul, Int.add_zero, Int.sub_zero]
    rw [wrap64_id (x := sec) (by omega) (by omega)]
    rw [if_pos (by omega), wrap64_id (by omega) (by omega)]
    simp only [GoTime.nanos, GoTime.Normal]
    omega
  · rw [if_neg h]
    exact ⟨rfl, by show (0 : Int) ≤ nsec; omega, by show nsec < 1000000000; omega⟩

theorem wrap64_add_wrap64 (a b : Int) : wrap64 (wrap64 a + b) = wrap64 (a + b) := by
  unfold wrap64; exact Int.bmod_add_bmod

theorem timeFrom_spec (units : Int) (p : Nat) (hu : IsInt64 units) (hp : p ≤ 9) :
    ∃ t, timeFromPrecisionUnits units p = .ok t ∧ t.nanos = units * 10 ^ (9 - p) ∧ t.Normal := by
  obtain ⟨h1, h2⟩ := hu
  have key : ∀ (k : Int) (r : Int), 0 < k → 10 ≤ k → k * r = 1000000000 → r ≤ 100000000 → 0 < r →
      (timeUnix (goDiv units k) (goMod units k * r)).nanos = units * r ∧
      (timeUnix (goDiv units k) (goMod units k * r)).Normal := by
    intro k r hk hk2 hkr hr hr0
    have hdm : goDiv units k * k + goMod units k = units := by
      unfold goDiv goMod; rw [Int.mul_comm]; exact Int.mul_tdiv_add_tmod units k
    have hm1 : -k < goMod units k := by
      rw [goMod_eq _ _ hk]
      have := Int.emod_lt_of_pos units hk
      have := Int.emod_lt_of_pos (-units) hk
      have := Int.emod_nonneg units (show k ≠ 0 by omega)
      have := Int.emod_nonneg (-units) (show k ≠ 0 by omega)
      split <;> omega
    have hm2 : goMod units k < k := by
      rw [goMod_eq _ _ hk]
      have := Int.emod_lt_of_pos units hk
      have := Int.emod_nonneg (-units) (show k ≠ 0 by omega)
      split <;> omega
    have hd1 : -9223372036854775807 ≤ goDiv units k ∧ goDiv units k ≤ 9223372036854775807 := by
      rw [goDiv_eq _ _ hk]
      split
      · have := Int.ediv_nonneg (a := units) (b := k) (by omega) (by omega)
        have := Int.ediv_le_self (a := units) k (by omega)
        omega
      · have := Int.ediv_nonneg (a := -units) (b := k) (by omega) (by omega)
        have h3 : (-units / k) * 10 ≤ (-units / k) * k := Int.mul_le_mul_of_nonneg_left hk2 this
        have h4 := Int.ediv_mul_le (-units) (show k ≠ 0 by omega)
        omega
    have hb1 : -1000000000 < goMod units k * r := by
      have : -k * r < goMod units k * r := Int.mul_lt_mul_of_pos_right hm1 hr0
      have e : -k * r = -(k * r) := Int.neg_mul _ _
      omega
    have hb2 : goMod units k * r < 1000000000 := by
      have : goMod units k * r < k * r := Int.mul_lt_mul_of_pos_right hm2 hr0
      omega
    obtain ⟨g1, g2⟩ := timeUnix_norm (goDiv units k) (goMod units k * r) hd1.1 hd1.2 hb1 hb2
    refine ⟨?_, g2⟩
    rw [g1, ← hkr, ← Int.mul_assoc, ← Int.add_mul, hdm]
  have h10 : p = 0 ∨ p = 1 ∨ p = 2 ∨ p = 3 ∨ p = 4 ∨ p = 5 ∨ p = 6 ∨ p = 7 ∨ p = 8 ∨ p = 9 := by
    omega
  rcases h10 with rfl | rfl | rfl | rfl | rfl | rfl | rfl | rfl | rfl | rfl
  · refine ⟨_, rfl, ?_, ?_⟩ <;> simp [timeUnix, GoTime.nanos, GoTime.Normal]
  · exact ⟨_, rfl, key 10 100000000 (by omega) (by omega) (by omega) (by omega) (by omega)⟩
  · exact ⟨_, rfl, key 100 10000000 (by omega) (by omega) (by omega) (by omega) (by omega)⟩
  · exact ⟨_, rfl, key 1000 1000000 (by omega) (by omega) (by omega) (by omega) (by omega)⟩
  · exact ⟨_, rfl, key 10000 100000 (by omega) (by omega) (by omega) (by omega) (by omega)⟩
  · exact ⟨_, rfl, key 100000 10000 (by omega) (by omega) (by omega) (by omega) (by omega)⟩
  · exact ⟨_, rfl, key 1000000 1000 (by omega) (by omega) (by omega) (by omega) (by omega)⟩
  · exact ⟨_, rfl, key 10000000 100 (by omega) (by omega) (by omega) (by omega) (by omega)⟩
  · exact ⟨_, rfl, key 100000000 10 (by omega) (by omega) (by omega) (by omega) (by omega)⟩
  · have := key 1000000000 1 (by omega) (by omega) (by omega) (by omega) (by omega)
    rw [Int.mul_one] at this
    exact ⟨_, rfl, by simpa using this⟩

theorem unixMilli_eq (t : GoTime) (h : t.Normal) : t.unixMilli = wrap64 (t.nanos / 1000000) := by
  obtain ⟨h1, h2⟩ := h
  unfold GoTime.unixMilli GoTime.nanos
  rw [wrap64_add_wrap64, goDiv_eq _ _ (by omega), if_pos h1]
  congr 1; omega

theorem unixMicro_eq (t : GoTime) (h : t.Normal) : t.unixMicro = wrap64 (t.nanos / 1000) := by
  obtain ⟨h1, h2⟩ := h
  unfold GoTime.unixMicro GoTime.nanos
  rw [wrap64_add_wrap64, goDiv_eq _ _ (by omega), if_pos h1]
  congr 1; omega

theorem unixNano_eq (t : GoTime) : t.unixNano = wrap64 t.nanos := by
  unfold GoTime.unixNano GoTime.nanos
  rw [wrap64_add_wrap64]

/-- Value at a precision: floor to the SI unit, wrap, then truncate. -/
theorem getTime_spec (t : GoTime) (h : t.Normal) (q : Nat) (hq : q ≤ 9) :
    getTimeValueByPrecision t q = .ok (
      if q = 0 then t.nanos / 1000000000
      else goDiv (wrap64 (t.nanos / 10 ^ (9 - siPrecision q))) (10 ^ (siPrecision q - q))) := by
  have hs : t.unix = t.nanos / 1000000000 := by
    obtain ⟨h1, h2⟩ := h
    unfold GoTime.unix GoTime.nanos; omega
  have d1 : ∀ x, goDiv x 1 = x := fun x => by unfold goDiv; simp
  have h10 : q = 0 ∨ q = 1 ∨ q = 2 ∨ q = 3 ∨ q = 4 ∨ q = 5 ∨ q = 6 ∨ q = 7 ∨ q = 8 ∨ q = 9 := by
    omega
  have e1 := unixMilli_eq t h
  have e2 := unixMicro_eq t h
  have e3 := unixNano_eq t
  rcases h10 with rfl | rfl | rfl | rfl | rfl | rfl | rfl | rfl | rfl | rfl <;>
    simp [getTimeValueByPrecision, siPrecision, d1, hs, e1, e2, e3]

theorem wrapdiv_iff (u k : Int) (hk : k = 1 ∨ k = 10 ∨ k = 100) (hu : IsInt64 u) :
    goDiv (wrap64 (u * k)) k = u ↔ IsInt64 (u * k) := by
  obtain ⟨q, e1, e2, e3⟩ := wrap64_spec (u * k)
  obtain ⟨u1, u2⟩ := hu
  constructor
  · intro h
    rw [goDiv_eq _ _ (by omega)] at h
    unfold IsInt64
    rcases hk with rfl | rfl | rfl <;> split at h <;> omega
  · rintro ⟨h1, h2⟩
    rw [wrap64_id h1 h2, goDiv_eq _ _ (by omega)]
    rcases hk with rfl | rfl | rfl <;> split <;> omega

theorem wrap64_wrap_right (a b : Int) : wrap64 (a + wrap64 b) = wrap64 (a + b) := by
  rw [Int.add_comm, wrap64_add_wrap64, Int.add_comm]

/-- `NewTime` computes on the wrapped total. -/
theorem newTime_eq (h m s us : Int) :
    newTime h m s us =
      (let d := goDiv (wrap64 (micros h m s us * 1000)) 1000
       if d < 0 ∨ d ≥ 86400000000 then .err else .ok d) := by
  unfold newTime micros
  simp only [wrap64_add_wrap64, wrap64_wrap_right]
  rw [show h * 3600000000000 + m * 60000000000 + s * 1000000000 + us * 1000 =
    (h * 3600000000 + m * 60000000 + s * 1000000 + us) * 1000 by omega]

/-! ### interval text -/

theorem atoiDigits_append (as bs : Bytes) (acc : Nat) :
    atoiDigits acc (as ++ bs) = (atoiDigits acc as).bind (fun a => atoiDigits a bs) := by
  induction as generalizing acc with
  | nil => rfl
  | cons a as ih =>
    simp only [List.cons_append, atoiDigits]
    split
    · exact ih _
    · rfl

theorem digit_toNat (n : Nat) (h : n < 10) : (UInt8.ofNat (48 + n)).toNat = 48 + n := by
  simp; omega

theorem atoiDigits_natText (n : Nat) : ∀ acc, acc = 0 → atoiDigits acc (natText n) = some n := by
  induction n using natText.induct with
  | case1 n h =>
    rintro _ rfl
    unfold natText
    simp only [h, if_true, atoiDigits, digit_toNat n h]
    rw [if_pos (by omega)]
    congr 1; omega
  | case2 n h ih =>
    rintro _ rfl
    unfold natText
    have hd := digit_toNat (n % 10) (by omega)
    simp only [h, if_false, atoiDigits_append, ih 0 rfl, Option.bind_some, atoiDigits, hd]
    rw [if_pos (by omega)]
    congr 1; omega

theorem natText_ne_nil (n : Nat) : natText n ≠ [] := by
  unfold natText; split <;> simp

theorem natText_digits (n : Nat) : ∀ b ∈ natText n, 48 ≤ b.toNat ∧ b.toNat ≤ 57 := by
  induction n using natText.induct with
  | case1 n h =>
    unfold natText
    simp only [h, if_true, List.mem_singleton]
    rintro b rfl
    rw [digit_toNat n h]; omega
  | case2 n h ih =>
    unfold natText
    simp only [h, if_false, List.mem_append, List.mem_singleton]
    rintro b (hb | rfl)
    · exact ih b hb
    · rw [digit_toNat _ (by omega)]; omega

theorem intText_ne_nil (i : Int) : intText i ≠ [] := by
  unfold intText; split
  · simp
  · exact natText_ne_nil _

theorem atoi_intText (i : Int) (h : IsInt64 i) : atoi (intText i) = .ok i := by
  obtain ⟨h1, h2⟩ := h
  unfold intText
  have hd := atoiDigits_natText i.natAbs 0 rfl
  have hne := natText_ne_nil i.natAbs
  split
  · unfold atoi
    simp only [hne, if_false, hd, if_true]
    rw [if_neg (by omega)]
    congr 1; omega
  · have hhead : ∃ c cs, natText i.natAbs = c :: cs ∧ c ≠ 45 ∧ c ≠ 43 := by
      cases hc : natText i.natAbs with
      | nil => exact absurd hc hne
      | cons c cs =>
        have := natText_digits i.natAbs c (by rw [hc]; simp)
        refine ⟨c, cs, rfl, ?_, ?_⟩ <;> rintro rfl <;> simp at this
    obtain ⟨c, cs, hc, h45, h43⟩ := hhead
    rw [hc] at hd ⊢
    unfold atoi
    split
    rename_i neg ds heq
    split at heq
    · rename_i e; cases e; exact absurd rfl h45
    · rename_i e; cases e; exact absurd rfl h43
    · cases heq
      simp only [reduceCtorEq, if_false, hd, Bool.false_eq_true]
      rw [if_neg (by omega)]
      congr 1; omega

theorem lastIndex_not_mem (b : UInt8) (as : Bytes) (h : b ∉ as) : lastIndex b as = -1 := by
  induction as with
  | nil => rfl
  | cons a as ih =>
    simp only [List.mem_cons, not_or] at h
    simp only [lastIndex, ih h.2]
    simp [Ne.symm h.1]

theorem lastIndex_append_cons (b : UInt8) (as bs : Bytes) (h : b ∉ bs) :
    lastIndex b (as ++ b :: bs) = as.length := by
  induction as with
  | nil => simp [lastIndex, lastIndex_not_mem b bs h]
  | cons a as ih =>
    simp only [List.cons_append, lastIndex, ih]
    rw [if_pos (by omega)]
    simp

theorem intText_mem (i : Int) (b : UInt8) (h : b ∈ intText i) : b.toNat ≤ 57 := by
  unfold intText at h
  split at h
  · simp only [List.mem_cons] at h
    rcases h with rfl | h
    · decide
    · exact (natText_digits _ b h).2
  · exact (natText_digits _ b h).2

end Verif
