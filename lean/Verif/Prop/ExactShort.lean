import Verif.Prop.FullCircle

/-!
# Values that are short decimals (C79)

A value such as 0.5, 0.375 or 1024 that *is* a decimal number of at most 15
(`double`) / 6 (`float`) significant digits.
-/

namespace Floaxie

open FloatType Spec

/-- A binary fraction that is a decimal fraction `d * 10^j` has `d ≥ 5^(-j)`. -/
theorem five_pow_le {d k n s : Nat} (hd : 0 < d) (h : d * 2 ^ s = n * 10 ^ k) : 5 ^ k ≤ d := by
  have h1 : 5 ^ k ∣ d * 2 ^ s := by
    rw [h, show (10 : Nat) = 5 * 2 by norm_num, mul_pow]
    exact ⟨n * 2 ^ k, by ring⟩
  have hc : Nat.Coprime (5 ^ k) (2 ^ s) := Nat.Coprime.pow _ _ (by decide)
  exact Nat.le_of_dvd hd (hc.dvd_of_dvd_mul_right h1)

/-- A finite value that is a short decimal is far above the least normal number. -/
theorem short_above {T : FloatType} {b : Nat} (hf : IsFinite T b) (h0 : value T b ≠ 0) {d : Nat} {j : Int}
    (hd : d < 10 ^ decimalDigits T) (hv : |value T b| = d * 10 ^ j) :
    AboveLeastNormal T b ∧ -21 ≤ j := by
  have hd0 : 0 < d := by
    rcases Nat.eq_zero_or_pos d with rfl | h
    · rw [Nat.cast_zero, zero_mul, abs_eq_zero] at hv
      exact absurd hv h0
    · exact h
  have hval := value_abs (T := T) b
  rw [hv] at hval
  have hj : -21 ≤ j := by
    by_contra hc
    push Not at hc
    obtain ⟨k, rfl⟩ : ∃ k : Nat, j = -(k : Int) := ⟨(-j).toNat, by omega⟩
    obtain ⟨s, hs⟩ : ∃ s : Nat, emin T = -(s : Int) := ⟨(-emin T).toNat, by cases T <;> decide⟩
    rw [hs, zpow_neg, zpow_neg, zpow_natCast, zpow_natCast] at hval
    have h1 : (d * 2 ^ s : ℚ) = N T (absPat T b) * 10 ^ k := by
      field_simp at hval
      linarith
    have h2 : d * 2 ^ s = N T (absPat T b) * 10 ^ k := by exact_mod_cast h1
    have h3 := five_pow_le hd0 h2
    have h4 : 5 ^ 22 ≤ 5 ^ k := Nat.pow_le_pow_right (by norm_num) (by omega)
    have h5 : 10 ^ decimalDigits T ≤ 10 ^ 15 := by cases T <;> decide
    have h6 : (10 : Nat) ^ 15 < 5 ^ 22 := by decide
    omega
  refine ⟨⟨hf, ?_⟩, hj⟩
  rw [absPat_mod]
  by_contra hc
  push Not at hc
  have e1 : N T (2 ^ (T.p - 1)) = 2 ^ (T.p - 1) := by cases T <;> decide
  have h1 : N T (absPat T b) ≤ 2 ^ (T.p - 1) := by rw [← e1]; exact N_le hc
  have h1' : (N T (absPat T b) : ℚ) ≤ 2 ^ (T.p - 1) := by exact_mod_cast h1
  have h2 : (10 : ℚ) ^ (-21 : Int) ≤ 10 ^ j := zpow_le_zpow_right₀ (by norm_num) hj
  have h3 : (1 : ℚ) ≤ d := by exact_mod_cast hd0
  have h4 : (10 : ℚ) ^ (-21 : Int) ≤ d * 10 ^ j := by
    calc (10 : ℚ) ^ (-21 : Int) ≤ 1 * 10 ^ j := by rw [one_mul]; exact h2
      _ ≤ _ := mul_le_mul_of_nonneg_right h3 (by positivity)
  have hu := emin_pos T
  have h5 : (N T (absPat T b) : ℚ) * 2 ^ emin T ≤ 2 ^ (T.p - 1) * 2 ^ emin T :=
    mul_le_mul_of_nonneg_right h1' hu.le
  have h6 : (2 : ℚ) ^ (T.p - 1) * 2 ^ emin T ≤ 2 ^ (-125 : Int) := by
    rw [← zpow_natCast, ← zpow_add₀ (by norm_num)]
    exact zpow_le_zpow_right₀ (by norm_num) (by cases T <;> decide)
  have h7 : (2 : ℚ) ^ (-125 : Int) < 10 ^ (-21 : Int) := by norm_num
  linarith

/-- **C79.** A finite value that is, exactly, a decimal number `± d * 10^j` of at
most 15 (`double`) / 6 (`float`) significant digits is printed as a numeral of
exactly that value; and every numeral of exactly that value - however it is spelled
- is read as it, with status success, to the end of the numeral, without the
fallback and leaving `errno` alone.  Powers of two are included. -/
theorem C79_exact_short (T : FloatType) (b : Nat) (hf : IsFinite T b) (h0 : value T b ≠ 0) (d : Nat)
    (j : Int) (hd : d < 10 ^ decimalDigits T) (hv : |value T b| = d * 10 ^ j) :
    (∃ n : Numeral, Prints T b n.text ∧ n.value = value T b) ∧
    ∀ (fb : Fallback) (errno : Nat) (mem : List Nat) (str : Nat) (n : Numeral),
      NumeralAt mem str n → n.value = value T b →
      atof T fb errno mem str = .ok ⟨b, .success, str + n.text.length, errno, false⟩ := by
  obtain ⟨hb, hj⟩ := short_above hf h0 hd hv
  constructor
  · have hself := wellInside_self hb
    have hm : mag T b = d * 10 ^ j := by rw [← hv, value_abs, mag_eq]
    rw [hm] at hself
    obtain ⟨n', p1, p2⟩ := C47_short_decimal T b hb d j hd (safelyInside_of_wellInside hb hself)
    refine ⟨n', p1, ?_⟩
    obtain ⟨i1, i2⟩ := identifies_sign (prints_identifies T b hf n' p1) h0
    have he : |n'.value| = |value T b| := by rw [abs_value_num, p2, hv]
    rcases abs_eq_abs.mp he with e | e
    · exact e
    · exfalso
      rcases lt_or_gt_of_ne h0 with c | c
      · have := i1.mp c
        linarith
      · have : ¬ n'.value < 0 := fun x => absurd (i1.mpr x) (by linarith)
        linarith
  · intro fb errno mem str n hn hnv
    refine C35_representable_exact T fb errno mem str n hn d j
      (lt_of_lt_of_le hd (by cases T <;> decide)) ?_ (fun _ => by omega) b hf h0 hnv
    rw [← abs_value_num, hnv, hv]

/-- 0.375 (`double`), a power of two 1/8 (`float`) and -1024 meet the hypotheses. -/
example : IsFinite .double 0x3FD8000000000000 ∧ value .double 0x3FD8000000000000 ≠ 0 ∧
    375 < 10 ^ decimalDigits .double ∧ |value .double 0x3FD8000000000000| = (375 : Nat) * 10 ^ (-3 : Int) := by
  refine ⟨⟨by decide, by decide⟩, by decide +kernel, by decide, by decide +kernel⟩

example : IsFinite .float 0x3E000000 ∧ value .float 0x3E000000 ≠ 0 ∧
    125 < 10 ^ decimalDigits .float ∧ |value .float 0x3E000000| = (125 : Nat) * 10 ^ (-3 : Int) := by
  refine ⟨⟨by decide, by decide⟩, by decide +kernel, by decide, by decide +kernel⟩

example : IsFinite .float 0xC4800000 ∧ value .float 0xC4800000 ≠ 0 ∧
    1024 < 10 ^ decimalDigits .float ∧ |value .float 0xC4800000| = (1024 : Nat) * 10 ^ (0 : Int) := by
  refine ⟨⟨by decide, by decide⟩, by decide +kernel, by decide, by decide +kernel⟩

end Floaxie
