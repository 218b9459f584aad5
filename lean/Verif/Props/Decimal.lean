import Verif.Lemmas.Decimal
import Mathlib.Tactic.Positivity
import Mathlib.Tactic.Linarith
/-!
# Properties of decimal literals (C06 – C08)
-/

namespace Verif

/-! ## C06 -/

/-- **C06 (value).** On success the bytes are 16, the scale is non-negative and below the
precision, the precision is at most 38, the stored integer has at most `p` digits, and the number
denoted is the input. -/
theorem C06_encoding_exact (d : Dec) (hd : d.InRange) (bs : List UInt8) (p s : Int)
    (h : decimalToBytes d = .ok (bs, p, s)) :
    bs.length = 16 ∧ 0 ≤ s ∧ s < p ∧ p ≤ 38 ∧ (signed16 bs).natAbs < 10 ^ p.toNat ∧
      bytesValue bs s = d.value := by
  have hp := decPrecisionScale_inRange hd
  unfold decimalToBytes at h
  rw [hp] at h
  have hpos := numDigits_pos d.coeff
  by_cases he : d.exp > 0
  · simp only [he, if_true] at h
    split at h
    · simp at h
    rename_i h38
    split at h
    · simp at h
    simp only [Res.ok.injEq, Prod.mk.injEq] at h
    obtain ⟨hb, rfl, rfl⟩ := h
    obtain ⟨e, he'⟩ : ∃ e : Nat, d.exp = e := ⟨d.exp.toNat, by omega⟩
    have hn : (d.exp).toNat = e := by omega
    have hlt : d.coeff * 10 ^ e < 10 ^ (numDigits d.coeff + e) := by
      by_cases hc : d.coeff = 0
      · rw [hc]; simp
      · exact (scaled_digits d.coeff e _ hc).1 (Nat.le_refl _)
    have hlt38 : d.coeff * 10 ^ e < 10 ^ 38 :=
      Nat.lt_of_lt_of_le hlt (Nat.pow_le_pow_right (by omega) (by omega))
    rw [hn] at hb
    obtain ⟨e1, e2⟩ := encode_signed d.neg _ (pow_lt_127 hlt38)
    rw [hb] at e1 e2
    refine ⟨e1, by omega, by omega, by omega, ?_, ?_⟩
    · rw [e2, show ((numDigits d.coeff : Int) + d.exp).toNat = numDigits d.coeff + e by omega]
      cases d.neg <;> simp [Int.natAbs_mul] <;> simpa using hlt
    · simp only [bytesValue, e2, Dec.value, zpow_zero, div_one, he', zpow_natCast]
      cases d.neg <;> simp
  · simp only [he, if_false] at h
    split at h
    · simp at h
    rename_i h38
    split at h
    · simp at h
    simp only [Res.ok.injEq, Prod.mk.injEq] at h
    obtain ⟨hb, rfl, rfl⟩ := h
    have hlt : d.coeff < 10 ^ numDigits d.coeff := (numDigits_le _ _ hpos).1 (Nat.le_refl _)
    have hlt38 : d.coeff < 10 ^ 38 :=
      Nat.lt_of_lt_of_le hlt (Nat.pow_le_pow_right (by omega) (by omega))
    obtain ⟨e1, e2⟩ := encode_signed d.neg _ (pow_lt_127 hlt38)
    rw [hb] at e1 e2
    refine ⟨e1, by omega, by omega, by omega, ?_, ?_⟩
    · rw [e2]
      have : d.coeff < 10 ^ (max (numDigits d.coeff : Int) (-d.exp + 1)).toNat :=
        Nat.lt_of_lt_of_le hlt (Nat.pow_le_pow_right (by omega) (by omega))
      cases d.neg <;> simpa [Int.natAbs_mul] using this
    · simp only [bytesValue, e2, Dec.value, div_eq_mul_inv, ← zpow_neg, neg_neg]
      cases d.neg <;> simp

/-- **C06 (success condition).** Encoding succeeds exactly when the number written out in plain
notation needs at most 38 digits; it never panics. -/
theorem C06_encoding_succeeds_iff (d : Dec) (hd : d.InRange) :
    (d.Fits38 → ∃ r, decimalToBytes d = .ok r) ∧ (¬ d.Fits38 → decimalToBytes d = .err) := by
  have hp := decPrecisionScale_inRange hd
  have hpos := numDigits_pos d.coeff
  unfold decimalToBytes
  rw [hp]
  unfold Dec.Fits38
  by_cases he : d.exp > 0
  · simp only [he, if_true]
    obtain ⟨e, he'⟩ : ∃ e : Nat, d.exp = e := ⟨d.exp.toNat, by omega⟩
    have hn : (d.exp).toNat = e := by omega
    rw [hn]
    have key : (-d.exp ≤ 37 ∧ (if d.coeff = 0 then d.exp ≤ 37 else d.coeff * 10 ^ e < 10 ^ 38)) ↔
        (numDigits d.coeff : Int) + d.exp ≤ 38 := by
      by_cases hc : d.coeff = 0
      · have : numDigits 0 = 1 := by unfold numDigits; simp
        simp only [hc, if_true, this]; omega
      · simp only [hc, if_false]
        rw [← scaled_digits d.coeff e 38 hc]; omega
    rw [key]
    constructor
    · intro h
      have hlt : d.coeff * 10 ^ e < 10 ^ 38 := by
        by_cases hc : d.coeff = 0
        · rw [hc]; simp
        · exact (scaled_digits d.coeff e _ hc).1 (by omega)
      have h16 : ¬ (natBytesBE (d.coeff * 10 ^ e)).length > 16 := by
        rw [gt_iff_lt, Nat.not_lt, natBytesBE_length]
        exact Nat.lt_trans hlt (by decide)
      rw [if_neg (by omega), if_neg h16]
      exact ⟨_, rfl⟩
    · intro h
      rw [if_pos (by omega)]
  · simp only [he, if_false]
    have hn : d.exp.toNat = 0 := by omega
    rw [hn]
    have key : (-d.exp ≤ 37 ∧ (if d.coeff = 0 then d.exp ≤ 37 else d.coeff * 10 ^ 0 < 10 ^ 38)) ↔
        max (numDigits d.coeff : Int) (-d.exp + 1) ≤ 38 := by
      have h2 := numDigits_le d.coeff 38 (by omega)
      by_cases hc : d.coeff = 0
      · have : numDigits 0 = 1 := by unfold numDigits; simp
        simp only [hc, if_true, this]; omega
      · simp only [hc, if_false, Nat.pow_zero, Nat.mul_one]
        rw [← h2]; omega
    rw [key]
    constructor
    · intro h
      have hlt : d.coeff < 10 ^ 38 := (numDigits_le d.coeff 38 (by omega)).1 (by omega)
      have h16 : ¬ (natBytesBE d.coeff).length > 16 := by
        rw [gt_iff_lt, Nat.not_lt, natBytesBE_length]
        exact Nat.lt_trans hlt (by decide)
      rw [if_neg (by omega), if_neg h16]
      exact ⟨_, rfl⟩
    · intro h
      rw [if_pos (by omega)]

/-- -12.34 and 5e3 are in range and fit; the first is encoded as shown. -/
example : (Dec.mk true 1234 (-2)).InRange ∧ (Dec.mk true 1234 (-2)).Fits38 ∧
    (Dec.mk false 5 3).InRange ∧ (Dec.mk false 5 3).Fits38 ∧
    ∃ r, decimalToBytes ⟨true, 1234, -2⟩ = .ok r := by
  have h : (Dec.mk true 1234 (-2)).InRange ∧ (Dec.mk true 1234 (-2)).Fits38 := by
    simp [Dec.InRange, Dec.Fits38, numDigits]
  refine ⟨h.1, h.2, ?_, ?_, (C06_encoding_succeeds_iff _ h.1).1 h.2⟩ <;>
    simp [Dec.InRange, Dec.Fits38, numDigits]

/-- A 39-digit number does not fit. -/
example : ¬ (Dec.mk false (10 ^ 38) 0).Fits38 := by simp [Dec.Fits38]

/-! ## C07 -/

/-- **C07 (decoding).** Any 16 bytes decode to the two's-complement integer they denote, scaled. -/
theorem C07_decode_value (bs : List UInt8) (s : Int) (hb : bs.length = 16)
    (hs : 0 ≤ s ∧ s ≤ 2147483647) :
    (decimalBytesToDec bs s).value = bytesValue bs s := by
  obtain ⟨h1, _⟩ := magnitude_signed bs hb
  simp only [decimalBytesToDec, Dec.value, bytesValue]
  rw [wrap32_id (by omega) (by omega), ← h1, zpow_neg, div_eq_mul_inv]
  by_cases h : isNegativeLE bs = true <;> simp [h]

/-- **C07 (negation).** Byte-wise negation is arithmetic negation modulo 2^128, for every byte
string of length 16 (including the most negative value, its own negation). -/
theorem C07_negate (bs : List UInt8) (hb : bs.length = 16) :
    let neg := (negateBE bs.reverse).reverse
    neg.length = 16 ∧ (2 ^ 128 : Int) ∣ signed16 neg + signed16 bs := by
  have hv := negateBE_value bs.reverse
  have hlt := leValue_lt bs
  simp only [List.reverse_reverse, List.length_reverse, hb] at hv hlt
  refine ⟨by simp [negateBE_length, hb], ?_⟩
  unfold signed16
  rw [hv]
  by_cases h0 : leValue bs = 0
  · rw [h0]; decide
  · rw [Nat.mod_eq_of_lt (by omega)]
    have hc : ((256 ^ 16 - leValue bs : Nat) : Int) = 2 ^ 128 - leValue bs := by omega
    split <;> split <;> rw [hc] <;> omega

/-- **C07 (re-encoding).** Decoding 16 bytes and encoding the resulting decimal gives the same
bytes and scale, whenever the integer has at most 38 digits and the scale at most 37 (the limits of
the encoder). -/
theorem C07_reencode (bs : List UInt8) (s : Int) (hb : bs.length = 16) (hs : 0 ≤ s ∧ s ≤ 37)
    (hm : (signed16 bs).natAbs < 10 ^ 38) :
    ∃ p, decimalToBytes (decimalBytesToDec bs s) = .ok (bs, p, s) := by
  obtain ⟨h1, h2⟩ := magnitude_signed bs hb
  have hexp : (decimalBytesToDec bs s).exp = -s := by
    simp only [decimalBytesToDec]; rw [wrap32_id] <;> omega
  have hcoeff : (decimalBytesToDec bs s).coeff = (signed16 bs).natAbs := h2
  have hnd : numDigits (signed16 bs).natAbs ≤ 38 := (numDigits_le _ 38 (by omega)).2 hm
  have hr : (decimalBytesToDec bs s).InRange := by
    refine ⟨by omega, by omega, ?_⟩
    rw [hcoeff]; omega
  have hf : (decimalBytesToDec bs s).Fits38 := by
    refine ⟨by omega, ?_⟩
    have : (-s).toNat = 0 := by omega
    rw [hcoeff, hexp, this]
    split <;> omega
  obtain ⟨⟨bs', p, s'⟩, hok⟩ := (C06_encoding_succeeds_iff _ hr).1 hf
  have hexact := C06_encoding_exact _ hr _ _ _ hok
  have hs' : s' = s := by
    have hp := decPrecisionScale_inRange hr
    unfold decimalToBytes at hok
    rw [hp, hexp, if_neg (by omega)] at hok
    simp only [if_neg (show ¬ (-s > 0) by omega)] at hok
    split at hok
    · simp at hok
    split at hok
    · simp at hok
    simp only [Res.ok.injEq, Prod.mk.injEq] at hok
    omega
  subst hs'
  have hval := hexact.2.2.2.2.2
  rw [C07_decode_value bs s' hb (by omega)] at hval
  have h10 : (10 : ℚ) ^ s' ≠ 0 := zpow_ne_zero _ (by norm_num)
  have : signed16 bs' = signed16 bs := by
    unfold bytesValue at hval
    rw [div_left_inj' h10] at hval
    exact_mod_cast hval
  rw [signed16_inj bs' bs hexact.1 hb this] at hok
  exact ⟨p, hok⟩

/-- A negative value meets the hypotheses of C07. -/
example : let bs : List UInt8 := 0x2e :: 0xfb :: List.replicate 14 0xff
    bs.length = 16 ∧ signed16 bs = -1234 ∧ (signed16 bs).natAbs < 10 ^ 38 := by
  decide

/-- The most negative value is its own negation. -/
example : let bs : List UInt8 := List.replicate 15 0 ++ [0x80]
    (negateBE bs.reverse).reverse = bs ∧ signed16 bs = -2 ^ 127 := by
  decide

/-! ## C08 -/

/-- **C08 (value).** When changing precision and scale succeeds, the result denotes exactly the same
number at exactly the requested precision and scale, and its digits fit the precision. -/
theorem C08_same_value (bs : List UInt8) (scale tp ts : Int) (hb : bs.length = 16)
    (hs : -100000 ≤ scale ∧ scale ≤ 100000) (hts : -2147483648 ≤ ts ∧ ts ≤ 2147483647)
    (bs' : List UInt8) (p s : Int) (h : modifyDecimal bs scale tp ts = .ok (bs', p, s)) :
    p = tp ∧ s = ts ∧ bs'.length = 16 ∧ 0 ≤ ts ∧ ts ≤ tp ∧ tp ≤ 38 ∧
      bytesValue bs' ts = bytesValue bs scale ∧ (signed16 bs').natAbs < 10 ^ tp.toNat := by
  obtain ⟨c, e, hred, hc, he, hval⟩ : ∃ (c : Nat) (e : Int),
      reduceDec (magnitudeLE bs) (wrap32 (-scale)) = (c, e) ∧ c < 10 ^ 39 ∧
      (-200000 ≤ e ∧ e ≤ 200000) ∧
      bytesValue bs scale = (if isNegativeLE bs then -1 else 1) * (c : ℚ) * (10 : ℚ) ^ e := by
    rcases modify_reduced bs scale hb hs with ⟨h0, h1⟩ | ⟨_, c, k, h1, _, h3, h4, h5⟩
    · exact ⟨0, 0, h1, by simp, by omega, by simp [bytesValue, h0]⟩
    · refine ⟨c, _, h4, h1, by omega, ?_⟩
      unfold bytesValue
      rw [h5, zpow_add₀ (by norm_num), zpow_neg, div_eq_mul_inv, zpow_natCast]
      by_cases hn : isNegativeLE bs = true <;> simp [hn] <;> ring
  obtain ⟨hok, herr⟩ := modify_outcome bs scale tp ts c e hred hc he hts
  by_cases hcond : tp ≤ 38 ∧ 0 ≤ ts ∧ -e ≤ ts ∧ ts ≤ tp ∧ (numDigits c : Int) + e + ts ≤ tp
  · obtain ⟨hlt, bs'', h1, h2, h3⟩ := hok hcond
    rw [h1] at h
    simp only [Res.ok.injEq, Prod.mk.injEq] at h
    obtain ⟨rfl, rfl, rfl⟩ := h
    refine ⟨rfl, rfl, h2, hcond.2.1, hcond.2.2.2.1, hcond.1, ?_, ?_⟩
    · rw [hval]
      unfold bytesValue
      have hz : (10 : ℚ) ^ e = (10 : ℚ) ^ (e + ts).toNat / (10 : ℚ) ^ ts := by
        rw [← zpow_natCast, Int.toNat_of_nonneg (by omega), zpow_add₀ (by norm_num)]
        rw [mul_div_assoc, div_self (zpow_ne_zero _ (by norm_num)), mul_one]
      rw [h3, hz]
      by_cases hn : isNegativeLE bs = true <;> simp [hn] <;> ring
    · rw [h3]
      by_cases hn : isNegativeLE bs = true <;> simpa [hn, Int.natAbs_mul] using hlt
  · rw [herr hcond] at h
    simp at h

/-- **C08 (success condition).** For a non-zero value the change succeeds exactly when the requested
precision and scale are sensible (0 ≤ scale ≤ precision ≤ 38) and some integer of at most `tp`
digits denotes the number at scale `ts`; otherwise an error is returned (never a panic). -/
theorem C08_succeeds_iff (bs : List UInt8) (scale tp ts : Int) (hb : bs.length = 16)
    (hs : -100000 ≤ scale ∧ scale ≤ 100000) (hts : -2147483648 ≤ ts ∧ ts ≤ 2147483647)
    (h0 : signed16 bs ≠ 0) :
    let fits := 0 ≤ ts ∧ ts ≤ tp ∧ tp ≤ 38 ∧
      ∃ n : Int, n.natAbs < 10 ^ tp.toNat ∧ (n : ℚ) / (10 : ℚ) ^ ts = bytesValue bs scale
    (fits → ∃ r, modifyDecimal bs scale tp ts = .ok r) ∧
    (¬ fits → modifyDecimal bs scale tp ts = .err) := by
  intro fits
  rcases modify_reduced bs scale hb hs with ⟨h0', _⟩ | ⟨_, c, k, h1, h2, h3, h4, h5⟩
  · exact absurd h0' h0
  obtain ⟨hok, herr⟩ := modify_outcome bs scale tp ts c _ h4 h1 (by omega) hts
  have key : fits → (tp ≤ 38 ∧ 0 ≤ ts ∧ -(-scale + k) ≤ ts ∧ ts ≤ tp ∧
      (numDigits c : Int) + (-scale + k) + ts ≤ tp) := by
    rintro ⟨g1, g2, g3, n, g4, g5⟩
    have h10 : ∀ z : Int, (10 : ℚ) ^ z ≠ 0 := fun z => zpow_ne_zero _ (by norm_num)
    -- |n| = c * 10 ^ (k - scale + ts)
    have habs : ((n.natAbs : Nat) : ℚ) = (c : ℚ) * (10 : ℚ) ^ (-scale + k + ts) := by
      have hn : (n : ℚ) = (signed16 bs : ℚ) * (10 : ℚ) ^ (ts - scale) := by
        unfold bytesValue at g5
        rw [div_eq_iff (h10 _)] at g5
        rw [g5, zpow_sub₀ (by norm_num)]
        ring
      have hn' : (n : ℚ) = (if isNegativeLE bs then -1 else 1) *
          ((c : ℚ) * (10 : ℚ) ^ (-scale + k + ts)) := by
        rw [hn, h5, show -scale + (k : Int) + ts = k + (ts - scale) by ring,
          zpow_add₀ (by norm_num), zpow_natCast]
        by_cases hn : isNegativeLE bs = true <;> simp [hn] <;> ring
      have hnn : (0 : ℚ) ≤ (c : ℚ) * (10 : ℚ) ^ (-scale + k + ts) :=
        mul_nonneg (Nat.cast_nonneg c) (zpow_nonneg (by norm_num) _)
      rw [Nat.cast_natAbs, Int.cast_abs, hn', abs_mul, abs_of_nonneg hnn]
      by_cases hn : isNegativeLE bs = true <;> simp [hn]
    have hge : 0 ≤ -scale + k + ts := by
      by_contra hneg
      obtain ⟨j, hj⟩ : ∃ j : Nat, -(-scale + k + ts) = (j : Int) + 1 :=
        ⟨(-(-scale + k + ts) - 1).toNat, by omega⟩
      have hz : -scale + (k : Int) + ts = -((j : Int) + 1) := by omega
      rw [hz, zpow_neg] at habs
      have hcn : c = n.natAbs * 10 ^ (j + 1) := by
        have : (c : ℚ) = (n.natAbs : ℚ) * (10 : ℚ) ^ ((j : Int) + 1) := by
          rw [habs, mul_assoc, inv_mul_cancel₀ (h10 _), mul_one]
        have h' : ((c : Nat) : ℚ) = ((n.natAbs * 10 ^ (j + 1) : Nat) : ℚ) := by
          rw [this]; push_cast; norm_cast
        exact_mod_cast h'
      rw [Nat.pow_succ, ← Nat.mul_assoc] at hcn
      exact h2 (by rw [hcn]; exact Nat.mul_mod_left _ _)
    have hc0 : c ≠ 0 := by
      rintro rfl
      exact h2 rfl
    have hnat : n.natAbs = c * 10 ^ (-scale + (k : Int) + ts).toNat := by
      obtain ⟨j, hj⟩ : ∃ j : Nat, -scale + (k : Int) + ts = j := ⟨_, (Int.toNat_of_nonneg hge).symm⟩
      rw [hj] at habs ⊢
      rw [Int.toNat_natCast]
      rw [zpow_natCast] at habs
      exact_mod_cast habs
    rw [hnat] at g4
    have := (scaled_digits c _ _ hc0).2 g4
    refine ⟨g3, g1, by omega, g2, by omega⟩
  constructor
  · intro hf
    obtain ⟨_, bs', hr, _⟩ := hok (key hf)
    exact ⟨_, hr⟩
  · intro hf
    by_cases hcond : tp ≤ 38 ∧ 0 ≤ ts ∧ -(-scale + k) ≤ ts ∧ ts ≤ tp ∧
      (numDigits c : Int) + (-scale + k) + ts ≤ tp
    · obtain ⟨_, bs', hr, _⟩ := hok hcond
      have hv := C08_same_value bs scale tp ts hb hs hts bs' tp ts hr
      exact absurd ⟨hv.2.2.2.1, hv.2.2.2.2.1, hv.2.2.2.2.2.1, signed16 bs', hv.2.2.2.2.2.2.2,
        hv.2.2.2.2.2.2.1⟩ hf
    · exact herr hcond

/-- **C08 (zero).** Zero can be re-scaled exactly to targets with 0 ≤ scale < precision ≤ 38: the
code asks for one digit before the point, so `decimal<p,p>` is refused for zero although it fits. -/
theorem C08_zero (bs : List UInt8) (scale tp ts : Int) (hb : bs.length = 16)
    (hs : -100000 ≤ scale ∧ scale ≤ 100000) (hts : -2147483648 ≤ ts ∧ ts ≤ 2147483647)
    (h0 : signed16 bs = 0) :
    (0 ≤ ts ∧ ts < tp ∧ tp ≤ 38 → ∃ r, modifyDecimal bs scale tp ts = .ok r) ∧
    (¬ (0 ≤ ts ∧ ts < tp ∧ tp ≤ 38) → modifyDecimal bs scale tp ts = .err) := by
  rcases modify_reduced bs scale hb hs with ⟨_, hred⟩ | ⟨h0', _⟩
  · obtain ⟨hok, herr⟩ := modify_outcome bs scale tp ts 0 0 hred (by simp) (by omega) hts
    have h1 : numDigits 0 = 1 := by unfold numDigits; simp
    rw [h1] at hok herr
    constructor
    · rintro ⟨g1, g2, g3⟩
      obtain ⟨_, bs', hr, _⟩ := hok ⟨g3, g1, by omega, by omega, by omega⟩
      exact ⟨_, hr⟩
    · intro hn
      exact herr (by omega)
  · exact absurd h0 h0'

/-- -12.30 (scale 2) moved to decimal<10,4> meets the hypotheses and fits. -/
example : let bs : List UInt8 := 0x32 :: 0xfb :: List.replicate 14 0xff
    bs.length = 16 ∧ signed16 bs = -1230 ∧
    ∃ r, modifyDecimal bs 2 10 4 = .ok r := by
  refine ⟨by decide, by decide, ?_⟩
  refine (C08_succeeds_iff _ 2 10 4 (by decide) (by omega) (by omega) (by decide)).1
    ⟨by omega, by omega, by omega, -123000, by decide, ?_⟩
  have : signed16 (0x32 :: 0xfb :: List.replicate 14 0xff) = -1230 := by decide
  rw [bytesValue, this]
  norm_num

/-- 12.34 does not fit decimal<10,1>. -/
example : let bs : List UInt8 := 0xd2 :: 0x04 :: List.replicate 14 0
    signed16 bs = 1234 ∧ modifyDecimal bs 2 10 1 = .err := by
  refine ⟨by decide, ?_⟩
  have h1 : signed16 (0xd2 :: 0x04 :: List.replicate 14 0) = 1234 := by decide
  refine (C08_succeeds_iff _ 2 10 1 (by decide) (by omega) (by omega) (by rw [h1]; decide)).2 ?_
  rintro ⟨_, _, _, n, _, h⟩
  rw [bytesValue, h1] at h
  have h2 : (n : ℚ) * 10 = 1234 := by
    norm_num at h
    linarith
  have h3 : n * 10 = 1234 := by exact_mod_cast h2
  omega

end Verif
