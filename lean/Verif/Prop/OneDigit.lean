import Verif.Proof.OneDigit

/-!
# Printing the numbers of one decimal digit (C81)

`0.1`, `3000`, `7e-300`: the numbers `± d * 10^j` with one significant digit.
-/

namespace Floaxie

open FloatType Spec

/-- The digits evaluated for a pattern, and the numeral printed. -/
theorem sameNat_printed {T : FloatType} {b d : Nat} {j : Int} (hf : IsFinite T b) (h0 : absPat T b ≠ 0) (hj : -400 ≤ j)
    {n : Numeral} (hn : Prints T b n.text) :
    ∃ r, sameNat T (absPat T b) d j = some r ∧ (r = true ↔ n.absValue = d * 10 ^ j) := by
  obtain ⟨ds, k, h1, ⟨hne, -, -⟩, -, h4, -, -, hg, h5⟩ := ftoa_main'' T (absPat T b) (absPat_lt_posInf hf) h0
  have hnn : n = fmtNumeral (decide (signBit T b = 1)) ds k :=
    numeral_text_inj _ _ (prints_unique hn (h5 b hf.1 rfl))
  have hl17 : ds.length ≤ 17 := by cases T <;> simp [maxSigDigits] at h1 <;> omega
  have habs : n.absValue = digitsVal ds * 10 ^ k := by
    rw [hnn]; exact fmt_absValue _ _ _ hne (fmtK h1 hne h4)
  unfold sameNat
  rw [grisu2P_eq, hg _ (by simpa using hl17)]
  dsimp only
  rw [List.take_left' (by simp), charsVal_digits]
  refine ⟨_, rfl, ?_⟩
  rw [beq_iff_eq, habs]
  have e1 : ((10 : ℚ)) ^ k * 10 ^ (400 : ℤ) = 10 ^ (k + 400).toNat := by
    rw [← zpow_add₀ (by norm_num), ← zpow_natCast]; congr 1; omega
  have e2 : ((10 : ℚ)) ^ j * 10 ^ (400 : ℤ) = 10 ^ (j + 400).toNat := by
    rw [← zpow_add₀ (by norm_num), ← zpow_natCast]; congr 1; omega
  have hp : (0 : ℚ) < 10 ^ (400 : ℤ) := by positivity
  constructor
  · intro h
    have h' : (digitsVal ds : ℚ) * 10 ^ (k + 400).toNat = d * 10 ^ (j + 400).toNat := by exact_mod_cast h
    rw [← e1, ← e2, ← mul_assoc, ← mul_assoc] at h'
    exact mul_right_cancel₀ hp.ne' h'
  · intro h
    have h' : (digitsVal ds : ℚ) * 10 ^ (k + 400).toNat = d * 10 ^ (j + 400).toNat := by
      rw [← e1, ← e2, ← mul_assoc, ← mul_assoc, h]
    exact_mod_cast h'

/-- Rounding of the magnitude. -/
theorem roundsTo_magnitude {T : FloatType} {x : ℚ} {b : Nat} (hx : x ≠ 0) (h : RoundsTo T x b) : RoundsTo T |x| (absPat T b) := by
  have hbs := bits_of_sign (T := T) h.1.1
  have hs := h.2.2.1
  rcases lt_or_gt_of_ne hx with hx' | hx'
  · rw [if_pos (hs.mpr hx')] at hbs
    have := roundsTo_neg hx h
    rw [abs_of_neg hx']
    rwa [hbs, neg_neg'] at this
  · rw [if_neg (fun c => absurd (hs.mp c) (by linarith))] at hbs
    rw [abs_of_pos hx', ← hbs]; exact h

/-- **C81.** Let `x = ± d * 10^j` be a number of one significant decimal digit and
`b` the datum it rounds to, a normal number above the least one.  `b` is printed as a
numeral of exactly that value - that is, with one significant digit - except for the
8 (`float`) and 12 (`double`) numbers of `oneDigitLong`, for which it is not. -/
theorem C81_one_digit (T : FloatType) (d : Nat) (j : Int) (hd : 1 ≤ d) (hd9 : d ≤ 9) (x : ℚ) (hx : |x| = d * 10 ^ j)
    (b : Nat) (hr : RoundsTo T x b) (hb : AboveLeastNormal T b) :
    (∃ n : Numeral, Prints T b n.text ∧ n.value = x) ↔ (d, j) ∉ oneDigitLong T := by
  have hdq : (1 : ℚ) ≤ d := by exact_mod_cast hd
  have hpos : (0 : ℚ) < d * 10 ^ j := by positivity
  have hx0 : x ≠ 0 := by intro h; rw [h, abs_zero] at hx; linarith
  have hra := roundsTo_magnitude hx0 hr
  rw [hx] at hra
  have hf := hb.1
  have hn := hb.2
  rw [absPat_mod] at hn
  have hc := absPat_lt_posInf hf
  have hc0 : absPat T b ≠ 0 := by have := Nat.two_pow_pos (T.p - 1); omega
  have hv0 : value T b ≠ 0 := fun h => hc0 (value_zero_iff.mp h)
  -- the exponents
  have hup : (d * 10 ^ j : ℚ) < 2 ^ T.maxExp := by
    have := hr.2.1
    rw [hx] at this
    have h2 : (0 : ℚ) < 2 ^ (T.maxExp - T.p - 1) := by positivity
    unfold overflowThreshold at this
    linarith
  have hlow : (2 : ℚ) ^ (T.minExp - 1) ≤ d * 10 ^ j := by
    have h1 := roundsTo_le hra (isFinite_of_lt (show 2 ^ (T.p - 1) < posInf T by omega))
    have e1 : N T (2 ^ (T.p - 1)) = 2 ^ (T.p - 1) := by cases T <;> decide
    have e2 : value T (2 ^ (T.p - 1)) = 2 ^ (T.minExp - 1) := by
      rw [value_of_lt (by omega), e1]
      push_cast
      rw [← zpow_natCast, ← zpow_add₀ (by norm_num)]
      congr 1
      cases T <;> decide
    have e3 : value T (2 ^ (T.p - 1)) < value T (absPat T b) := by
      rw [value_of_lt (by omega), value_of_lt hc]
      exact mul_lt_mul_of_pos_right (by exact_mod_cast N_lt (T := T) hn) (emin_pos T)
    by_contra hcon
    push Not at hcon
    rw [e2] at h1 e3
    rw [abs_of_nonpos (by linarith), abs_of_nonpos (by linarith)] at h1
    linarith
  obtain ⟨j1, j2⟩ := one_range hd hd9 hlow hup
  obtain ⟨k1, k2⟩ := one_key (one_all T d j hd hd9 j1 j2) hc hn hra
  have hj : -400 ≤ j := le_trans (by cases T <;> decide) j1
  -- the sign
  have hsign : ∀ n : Numeral, Prints T b n.text → (n.value = x ↔ n.absValue = d * 10 ^ j) := by
    intro n hn'
    obtain ⟨i1, i2⟩ := identifies_sign (prints_identifies T b hf n hn') hv0
    have hs1 : value T b < 0 ↔ x < 0 := by rw [← value_sign hf hv0]; exact hr.2.2.1
    rw [← hx, ← abs_value_num]
    constructor
    · intro h; rw [h]
    · intro h
      rcases abs_eq_abs.mp h with e | e
      · exact e
      · exfalso
        rcases lt_or_gt_of_ne hx0 with c | c
        · have := (i1.mp (hs1.mpr c)); linarith
        · have : ¬ n.value < 0 := fun q => absurd (hs1.mp (i1.mpr q)) (by linarith)
          linarith
  constructor
  · rintro ⟨n, p1, p2⟩ hm
    obtain ⟨r, r1, r2⟩ := sameNat_printed (d := d) hf hc0 hj p1
    rw [k2 hm] at r1
    rw [(hsign n p1).mp p2, ← Option.some.inj r1] at r2
    simp at r2
  · intro hm
    rcases k1 hm with hs | hs
    · have hs' : SafelyInside T b (d * 10 ^ j) := by
        have hi := isFinite_of_lt hc
        obtain ⟨m1, m2⟩ := mids_eq hi
        obtain ⟨m3, m4⟩ := mids_eq hf
        have m5 := stepAbove_eq hi
        have m6 := stepAbove_eq hf
        rw [absPat_of_lt hc] at m1 m2 m5
        unfold SafelyInside at hs ⊢
        rw [m3, m4, m6, ← m1, ← m2, ← m5]
        exact hs
      obtain ⟨n, p1, p2⟩ := C47_short_decimal T b hb d j
        (lt_of_le_of_lt hd9 (by cases T <;> decide)) hs'
      exact ⟨n, p1, (hsign n p1).mpr p2⟩
    · obtain ⟨n, -, p1, -⟩ := C01_ftoa_identifies T b hf hv0
      obtain ⟨r, r1, r2⟩ := sameNat_printed (d := d) hf hc0 hj p1
      rw [hs] at r1
      exact ⟨n, p1, (hsign n p1).mpr (r2.mp (Option.some.inj r1).symm)⟩

/-- 0.1 (`double`) meets the hypotheses and is printed so. -/
example : Identifies .double (1 / 10) 0x3FB999999999999A ∧ AboveLeastNormal .double 0x3FB999999999999A ∧
    (1, -1) ∉ oneDigitLong .double ∧ Prints .double 0x3FB999999999999A (chars "0.1") := by
  refine ⟨?_, ⟨isFinite_of_lt (by decide), by decide⟩, by decide, prints_of_string (by decide) (by decide +kernel)⟩
  rw [show (1 / 10 : ℚ) = ((1 : ℕ) / (10 : ℕ) : ℚ) by norm_num]
  exact identifies_ratio (by decide) (by decide) (by decide +kernel) (by decide +kernel)

/-- Numbers of the list: 9e-265 (`double`) identifies a datum that is printed with
sixteen digits, 1e-22 (`float`) one that is printed with nine. -/
example : (Identifies .double (9 / 10 ^ 265) 0x091D05244FE5066A ∧ (9, -265) ∈ oneDigitLong .double ∧
      Prints .double 0x091D05244FE5066A (chars "9.000000000000001e-265")) ∧
    (Identifies .float (1 / 10 ^ 22) 0x1AF1C901 ∧ (1, -22) ∈ oneDigitLong .float ∧
      Prints .float 0x1AF1C901 (chars "1.00000006e-22")) := by
  refine ⟨⟨?_, by decide, prints_of_string (by decide) (by decide +kernel)⟩,
    ?_, by decide, prints_of_string (by decide) (by decide +kernel)⟩
  · rw [show (9 / 10 ^ 265 : ℚ) = ((9 : ℕ) / ((10 ^ 265 : ℕ) : ℚ) : ℚ) by push_cast; rfl]
    exact identifies_ratio (by decide) (by decide +kernel) (by decide +kernel) (by decide +kernel)
  · rw [show (1 / 10 ^ 22 : ℚ) = ((1 : ℕ) / ((10 ^ 22 : ℕ) : ℚ) : ℚ) by push_cast; rfl]
    exact identifies_ratio (by decide) (by decide +kernel) (by decide +kernel) (by decide +kernel)

end Floaxie
