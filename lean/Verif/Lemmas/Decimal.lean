import Verif.Spec.Decimal
import Mathlib.Tactic.Ring
import Mathlib.Tactic.NormNum
import Mathlib.Tactic.FieldSimp
/-! # Helper lemmas about decimal bytes -/

namespace Verif

theorem wrap32_id {x : Int} (h1 : -2147483648 ≤ x) (h2 : x ≤ 2147483647) : wrap32 x = x := by
  unfold wrap32
  rw [Int.bmod_eq_of_le] <;> omega

theorem wrap64_id {x : Int} (h1 : -9223372036854775808 ≤ x) (h2 : x ≤ 9223372036854775807) :
    wrap64 x = x := by
  unfold wrap64
  rw [Int.bmod_eq_of_le] <;> omega

theorem numDigits_pos (n : Nat) : 1 ≤ numDigits n := by
  unfold numDigits; split <;> omega

theorem numDigits_le (n : Nat) : ∀ k, 1 ≤ k → (numDigits n ≤ k ↔ n < 10 ^ k) := by
  induction n using numDigits.induct with
  | case1 n h =>
    intro k hk
    unfold numDigits
    simp only [h, if_true]
    have : 10 ^ 1 ≤ 10 ^ k := Nat.pow_le_pow_right (by omega) hk
    constructor <;> intro <;> omega
  | case2 n h ih =>
    intro k hk
    unfold numDigits
    simp only [h, if_false]
    obtain ⟨k, rfl⟩ : ∃ j, k = j + 1 := ⟨k - 1, by omega⟩
    by_cases hk0 : k = 0
    · subst hk0
      have := numDigits_pos (n / 10)
      constructor
      · intro; omega
      · intro h2; simp at h2; omega
    · have := ih k (by omega)
      rw [Nat.add_le_add_iff_right, this, Nat.pow_succ]
      omega

theorem leValue_lt (bs : List UInt8) : leValue bs < 256 ^ bs.length := by
  induction bs with
  | nil => simp [leValue]
  | cons b bs ih =>
    have := b.toNat_lt
    simp only [leValue, List.length_cons, Nat.pow_succ]
    omega

theorem leValue_append (as bs : List UInt8) :
    leValue (as ++ bs) = leValue as + 256 ^ as.length * leValue bs := by
  induction as with
  | nil => simp [leValue]
  | cons a as ih => simp [leValue, ih, Nat.pow_succ]; ring

theorem foldl_be (bs : List UInt8) (acc : Nat) :
    bs.foldl (fun acc b => acc * 256 + b.toNat) acc
      = acc * 256 ^ bs.length + leValue bs.reverse := by
  induction bs generalizing acc with
  | nil => simp [leValue]
  | cons b bs ih =>
    simp only [List.foldl_cons, ih, List.reverse_cons, leValue_append, List.length_reverse,
      List.length_cons, leValue, Nat.pow_succ]
    ring

theorem natOfBytesBE_eq (bs : List UInt8) : natOfBytesBE bs = leValue bs.reverse := by
  simp [natOfBytesBE, foldl_be]

theorem addOneFromEnd_length (bs : List UInt8) : (addOneFromEnd bs).length = bs.length := by
  induction bs with
  | nil => rfl
  | cons b bs ih => unfold addOneFromEnd; split <;> simp [ih]

theorem addOneFromEnd_value (bs : List UInt8) :
    leValue (addOneFromEnd bs) = (leValue bs + 1) % 256 ^ bs.length := by
  induction bs with
  | nil => simp [addOneFromEnd, leValue]
  | cons b bs ih =>
    have hb := b.toNat_lt
    have hl := leValue_lt bs
    unfold addOneFromEnd
    by_cases h : b + 1 ≠ 0
    · have hb' : b.toNat ≠ 255 := by
        intro hc
        apply h
        apply UInt8.toNat_inj.1
        simp [UInt8.toNat_add, hc]
      have : (b + 1).toNat = b.toNat + 1 := by
        rw [UInt8.toNat_add]; simp; omega
      simp only [h, leValue, if_true, this, ne_eq, not_false_eq_true, List.length_cons]
      rw [Nat.mod_eq_of_lt]
      · omega
      · rw [Nat.pow_succ]; omega
    · have h0 : b + 1 = 0 := by simpa using h
      have hb' : b.toNat = 255 := by
        have := congrArg UInt8.toNat h0
        rw [UInt8.toNat_add] at this; simp at this; omega
      simp only [h0, leValue, ne_eq, not_true_eq_false, if_false, ih, hb', List.length_cons,
        UInt8.toNat_zero]
      rw [Nat.pow_succ, Nat.mul_comm (256 ^ bs.length) 256,
        show 255 + 256 * leValue bs + 1 = 256 * (leValue bs + 1) by omega, Nat.mul_mod_mul_left]
      omega

theorem complement_value (bs : List UInt8) :
    leValue (bs.map (fun b => ~~~ b)) + leValue bs + 1 = 256 ^ bs.length := by
  induction bs with
  | nil => simp [leValue]
  | cons b bs ih =>
    have hb := b.toNat_lt
    have : (~~~ b).toNat = 255 - b.toNat := by
      rw [UInt8.toNat_not]; rfl
    simp only [List.map_cons, leValue, this, List.length_cons, Nat.pow_succ]
    omega

theorem negateBE_length (bs : List UInt8) : (negateBE bs).length = bs.length := by
  simp [negateBE, addOneFromEnd_length]

/-- byte-wise negation is negation modulo `256^n` -/
theorem negateBE_value (bs : List UInt8) :
    leValue (negateBE bs).reverse = (256 ^ bs.length - leValue bs.reverse) % 256 ^ bs.length := by
  have h1 := complement_value bs.reverse
  unfold negateBE
  rw [List.reverse_reverse, addOneFromEnd_value, ← List.map_reverse]
  simp only [List.length_map, List.length_reverse] at *
  congr 1
  omega

theorem natBytesBE_value (n : Nat) : leValue (natBytesBE n).reverse = n := by
  induction n using natBytesBE.induct with
  | case1 => unfold natBytesBE; simp [leValue]
  | case2 n h ih =>
    unfold natBytesBE
    simp only [h, if_false, List.reverse_append, List.reverse_cons, List.reverse_nil,
      List.nil_append, List.cons_append, leValue, ih]
    have : n % 256 < 256 := Nat.mod_lt _ (by omega)
    simp
    omega

theorem natBytesBE_length (n : Nat) : ∀ k, (natBytesBE n).length ≤ k ↔ n < 256 ^ k := by
  induction n using natBytesBE.induct with
  | case1 => intro k; unfold natBytesBE; simp
  | case2 n h ih =>
    intro k
    unfold natBytesBE
    simp only [h, if_false, List.length_append, List.length_cons, List.length_nil]
    cases k with
    | zero => simp; omega
    | succ k =>
      have := ih k
      rw [Nat.add_le_add_iff_right, this, Nat.pow_succ]
      omega

theorem leValue_replicate (n : Nat) : leValue (List.replicate n 0) = 0 := by
  induction n with
  | zero => rfl
  | succ n ih => simp [List.replicate_succ, leValue, ih]

theorem pad16_length (bs : List UInt8) (h : bs.length ≤ 16) : (pad16 bs).length = 16 := by
  simp [pad16]; omega

theorem pad16_value (bs : List UInt8) : leValue (pad16 bs).reverse = leValue bs.reverse := by
  simp [pad16, leValue_append, leValue_replicate]

/-- bytes produced for a signed magnitude below 2^127 -/
theorem encode_signed (neg : Bool) (c : Nat) (h : c < 2 ^ 127) :
    let r := pad16 (natBytesBE c)
    let r := if neg then negateBE r else r
    r.reverse.length = 16 ∧ signed16 r.reverse = (if neg then -1 else 1) * (c : Int) := by
  have hl : (natBytesBE c).length ≤ 16 := (natBytesBE_length c 16).2 (by omega)
  have hv : leValue (pad16 (natBytesBE c)).reverse = c := by rw [pad16_value, natBytesBE_value]
  have hn := pad16_length _ hl
  cases neg
  · refine ⟨by simp [hn], ?_⟩
    simp only [signed16, Bool.false_eq_true, if_false, hv, h, if_true]; simp
  · refine ⟨by simp [negateBE_length, hn], ?_⟩
    simp only [if_true, signed16, negateBE_value, hn, hv]
    by_cases h0 : c = 0
    · subst h0; decide
    · rw [Nat.mod_eq_of_lt (by omega)]
      rw [if_neg (by omega)]
      omega

theorem isNegativeLE_iff (bs : List UInt8) (h : bs.length = 16) :
    isNegativeLE bs = true ↔ 2 ^ 127 ≤ leValue bs := by
  obtain ⟨as, b, rfl⟩ : ∃ as b, bs = as ++ [b] := by
    rcases List.eq_nil_or_concat bs with h' | ⟨as, b, rfl⟩
    · subst h'; simp at h
    · exact ⟨as, b, by simp⟩
  have hl : as.length = 15 := by simpa using h
  have h1 : (as ++ [b]).getD 15 0 = b := by
    simp [List.getD, hl]
  have hv := leValue_lt as
  have hb := b.toNat_lt
  unfold isNegativeLE
  rw [h1, leValue_append, hl]
  rw [hl] at hv
  have key : (b &&& 0x80 ≠ 0) ↔ 128 ≤ b.toNat := by
    have : ∀ x : UInt8, (x &&& 0x80 ≠ 0) ↔ 128 ≤ x.toNat := by
      intro x
      have hx : x = UInt8.ofNat x.toNat := by simp
      have : ∀ n : Fin 256, (UInt8.ofNat n.1 &&& 0x80 ≠ 0) ↔ 128 ≤ n.1 := by decide +kernel
      rw [hx]
      simpa using this ⟨x.toNat, x.toNat_lt⟩
    exact this b
  simp only [decide_eq_true_eq, key, leValue]
  omega

theorem magnitude_signed (bs : List UInt8) (h : bs.length = 16) :
    (if isNegativeLE bs then -1 else 1) * (magnitudeLE bs : Int) = signed16 bs ∧
    magnitudeLE bs = (signed16 bs).natAbs := by
  have hlt := leValue_lt bs
  rw [h] at hlt
  have hi := isNegativeLE_iff bs h
  unfold magnitudeLE
  cases hb : isNegativeLE bs
  · have : ¬ 2 ^ 127 ≤ leValue bs := by rw [← hi, hb]; simp
    simp only [natOfBytesBE_eq, List.reverse_reverse, Bool.false_eq_true, if_false, signed16]
    rw [if_pos (by omega)]
    omega
  · have : 2 ^ 127 ≤ leValue bs := hi.1 hb
    simp only [natOfBytesBE_eq, negateBE_value, List.reverse_reverse, List.length_reverse, h,
      if_true, signed16]
    rw [if_neg (by omega), Nat.mod_eq_of_lt (by omega)]
    omega

theorem leValue_inj : ∀ (as bs : List UInt8), as.length = bs.length → leValue as = leValue bs →
    as = bs
  | [], [], _, _ => rfl
  | [], _ :: _, h, _ => by simp at h
  | _ :: _, [], h, _ => by simp at h
  | a :: as, b :: bs, h, hv => by
    have ha := a.toNat_lt
    have hb := b.toNat_lt
    simp only [leValue] at hv
    have h1 : a.toNat = b.toNat := by omega
    have h2 : leValue as = leValue bs := by omega
    rw [UInt8.toNat_inj.1 h1, leValue_inj as bs (by simpa using h) h2]

theorem signed16_inj (as bs : List UInt8) (ha : as.length = 16) (hb : bs.length = 16)
    (h : signed16 as = signed16 bs) : as = bs := by
  apply leValue_inj as bs (by omega)
  have h1 := leValue_lt as
  have h2 := leValue_lt bs
  rw [ha] at h1; rw [hb] at h2
  unfold signed16 at h
  split at h <;> split at h <;> omega

/-- what `Reduce` returns -/
theorem reduceDec_spec (c : Nat) (e : Int) (hc : c ≠ 0) :
    ∃ k : Nat, reduceDec c e = (c / 10 ^ k, e + k) ∧ 10 ^ k ∣ c ∧ (c / 10 ^ k) % 10 ≠ 0 := by
  induction c, e using reduceDec.induct with
  | case1 => exact absurd rfl hc
  | case2 c e h0 h1 ih =>
    obtain ⟨k, e1, e2, e3⟩ := ih (by omega)
    refine ⟨k + 1, ?_, ?_, ?_⟩
    · unfold reduceDec
      simp only [h0, h1, if_true, if_false, e1, Nat.pow_succ']
      rw [Nat.div_div_eq_div_mul]
      congr 1
      push_cast; omega
    · rw [Nat.pow_succ']
      have : c = 10 * (c / 10) := by omega
      rw [this]
      exact Nat.mul_dvd_mul_left 10 (by simpa using e2)
    · rw [Nat.pow_succ', ← Nat.div_div_eq_div_mul]; exact e3
  | case3 c e h0 h1 =>
    exact ⟨0, by unfold reduceDec; simp [h0, h1], by simp, by simpa using h1⟩

theorem reduceDec_zero (e : Int) : reduceDec 0 e = (0, 0) := by unfold reduceDec; simp

theorem decPrecisionScale_inRange {d : Dec} (h : d.InRange) :
    decPrecisionScale d =
      if d.exp > 0 then ((numDigits d.coeff : Int) + d.exp, 0)
      else (max (numDigits d.coeff : Int) (-d.exp + 1), -d.exp) := by
  obtain ⟨h1, h2, h3⟩ := h
  unfold decPrecisionScale
  split
  · rw [wrap32_id (x := (numDigits d.coeff : Int)), wrap32_id] <;> omega
  · simp only
    rw [wrap32_id (x := (numDigits d.coeff : Int)), wrap32_id (x := -d.exp), wrap32_id] <;> omega

/-- The coefficient after scaling by a positive exponent. -/
theorem scaled_digits (c : Nat) (e k : Nat) (hc : c ≠ 0) :
    numDigits c + e ≤ k ↔ c * 10 ^ e < 10 ^ k := by
  by_cases hk : e < k
  · obtain ⟨j, rfl⟩ : ∃ j, k = j + e := ⟨k - e, by omega⟩
    rw [Nat.add_le_add_iff_right, numDigits_le c j (by omega), Nat.pow_add,
      Nat.mul_lt_mul_right (Nat.pow_pos (by omega))]
  · have := numDigits_pos c
    constructor
    · intro; omega
    · intro h
      have h1 : 10 ^ k ≤ 10 ^ e := Nat.pow_le_pow_right (by omega) (by omega)
      have h2 : 1 * 10 ^ e ≤ c * 10 ^ e := Nat.mul_le_mul_right _ (by omega)
      omega

theorem pow_lt_127 {c : Nat} (h : c < 10 ^ 38) : c < 2 ^ 127 :=
  Nat.lt_trans h (by decide)

/-- What the reduced decimal is. -/
theorem reduce_core (m : Nat) (scale : Int) (hs : -100000 ≤ scale ∧ scale ≤ 100000)
    (hm : m < 10 ^ 39) (hc : m ≠ 0) :
    ∃ k c : Nat, m = c * 10 ^ k ∧ c % 10 ≠ 0 ∧ k ≤ 38 ∧
      reduceDec m (wrap32 (-scale)) = (c, -scale + k) := by
  obtain ⟨k, h1, h2, h3⟩ := reduceDec_spec m (wrap32 (-scale)) hc
  rw [wrap32_id (by omega) (by omega)] at *
  have hk : k ≤ 38 := by
    by_contra hk
    have : 10 ^ 39 ≤ 10 ^ k := Nat.pow_le_pow_right (by omega) (by omega)
    have h4 := Nat.le_of_dvd (by omega) h2
    omega
  exact ⟨k, _, (Nat.div_mul_cancel h2).symm, h3, hk, h1⟩

theorem validate_iff (c : Nat) (e tp ts : Int) (hc : c < 10 ^ 39)
    (he : -200000 ≤ e ∧ e ≤ 200000) (hts : -2147483648 ≤ ts ∧ ts ≤ 2147483647) (htp : tp ≤ 38) :
    validatePrecisionScale c e tp ts = true ↔
      0 ≤ ts ∧ -e ≤ ts ∧ ts ≤ tp ∧ (numDigits c : Int) + e + ts ≤ tp := by
  have hd := (numDigits_le c 39 (by omega)).2 hc
  have hpos := numDigits_pos c
  unfold validatePrecisionScale minPrecisionScale
  by_cases h : e > 0
  · simp only [h, if_true]
    rw [wrap32_id (x := (numDigits c : Int)) (by omega) (by omega),
      wrap32_id (x := (numDigits c : Int) + e) (by omega) (by omega)]
    split
    · simp; omega
    split
    · simp; omega
    rw [wrap32_id (by omega) (by omega), wrap32_id (by omega) (by omega)]
    split
    · simp; omega
    · simp; omega
  · simp only [h, if_false]
    rw [wrap32_id (x := (numDigits c : Int)) (by omega) (by omega),
      wrap32_id (x := -e) (by omega) (by omega)]
    split
    · simp; omega
    split
    · simp; omega
    rw [wrap32_id (by omega) (by omega), wrap32_id (by omega) (by omega)]
    split
    · simp; omega
    · simp; omega

/-- Outcome of `modifyDecimal` in terms of the reduced coefficient and exponent. -/
theorem modify_outcome (bs : List UInt8) (scale tp ts : Int) (c : Nat) (e : Int)
    (hred : reduceDec (magnitudeLE bs) (wrap32 (-scale)) = (c, e)) (hc : c < 10 ^ 39)
    (he : -200000 ≤ e ∧ e ≤ 200000) (hts : -2147483648 ≤ ts ∧ ts ≤ 2147483647) :
    (tp ≤ 38 ∧ 0 ≤ ts ∧ -e ≤ ts ∧ ts ≤ tp ∧ (numDigits c : Int) + e + ts ≤ tp →
      c * 10 ^ (e + ts).toNat < 10 ^ tp.toNat ∧
      ∃ bs', modifyDecimal bs scale tp ts = .ok (bs', tp, ts) ∧ bs'.length = 16 ∧
        signed16 bs' = (if isNegativeLE bs then -1 else 1) * ((c * 10 ^ (e + ts).toNat : Nat) : Int))
    ∧ (¬ (tp ≤ 38 ∧ 0 ≤ ts ∧ -e ≤ ts ∧ ts ≤ tp ∧ (numDigits c : Int) + e + ts ≤ tp) →
      modifyDecimal bs scale tp ts = .err) := by
  have hpos := numDigits_pos c
  unfold modifyDecimal
  rw [hred]
  constructor
  · rintro ⟨h1, h2, h3, h4, h5⟩
    have hv := (validate_iff c e tp ts hc he hts h1).2 ⟨h2, h3, h4, h5⟩
    have hlt : c * 10 ^ (e + ts).toNat < 10 ^ tp.toNat := by
      by_cases h0 : c = 0
      · rw [h0]; simp
      · exact (scaled_digits c _ _ h0).1 (by omega)
    have hlt38 : c * 10 ^ (e + ts).toNat < 10 ^ 38 :=
      Nat.lt_of_lt_of_le hlt (Nat.pow_le_pow_right (by omega) (by omega))
    have hnd : (numDigits (c * 10 ^ (e + ts).toNat) : Int) ≤ tp := by
      have := (numDigits_le (c * 10 ^ (e + ts).toNat) tp.toNat (by omega)).2 hlt
      omega
    have h16 : ¬ (natBytesBE (c * 10 ^ (e + ts).toNat)).length > 16 := by
      rw [gt_iff_lt, Nat.not_lt, natBytesBE_length]
      exact Nat.lt_trans hlt38 (by decide)
    obtain ⟨e1, e2⟩ := encode_signed (isNegativeLE bs) _ (pow_lt_127 hlt38)
    refine ⟨hlt, _, ?_, e1, e2⟩
    simp only [hv, quantizeUp]
    rw [if_neg (by omega), if_neg (by simp), if_neg (by omega)]
    simp only [Res.ok_bind]
    rw [if_neg h16]
  · intro h
    by_cases h38 : tp > 38
    · simp [h38]
    · have hv : validatePrecisionScale c e tp ts = false := by
        rw [Bool.eq_false_iff]
        intro hv
        exact h ⟨by omega, (validate_iff c e tp ts hc he hts (by omega)).1 hv⟩
      simp [h38, hv]

/-- Either zero (reduced to `0E0`) or the reduced form of the value. -/
theorem modify_reduced (bs : List UInt8) (scale : Int) (hb : bs.length = 16)
    (hs : -100000 ≤ scale ∧ scale ≤ 100000) :
    (signed16 bs = 0 ∧ reduceDec (magnitudeLE bs) (wrap32 (-scale)) = (0, 0)) ∨
    (signed16 bs ≠ 0 ∧ ∃ c k : Nat, c < 10 ^ 39 ∧ c % 10 ≠ 0 ∧ k ≤ 38 ∧
      reduceDec (magnitudeLE bs) (wrap32 (-scale)) = (c, -scale + k) ∧
      signed16 bs = (if isNegativeLE bs then -1 else 1) * ((c * 10 ^ k : Nat) : Int)) := by
  obtain ⟨h1, h2⟩ := magnitude_signed bs hb
  have hlt : magnitudeLE bs < 10 ^ 39 := by
    have h3 := leValue_lt bs
    rw [hb] at h3
    have : (256 ^ 16 : Nat) < 10 ^ 39 := by decide
    rw [h2]; unfold signed16; split <;> omega
  by_cases h0 : magnitudeLE bs = 0
  · left
    exact ⟨by omega, by rw [h0, reduceDec_zero]⟩
  · right
    obtain ⟨k, c, e1, e2, e3, e4⟩ := reduce_core _ scale hs hlt h0
    refine ⟨by omega, c, k, ?_, e2, e3, e4, ?_⟩
    · have : c * 1 ≤ c * 10 ^ k := Nat.mul_le_mul_left _ (Nat.pow_pos (by omega))
      omega
    · rw [← h1, ← e1]

end Verif
