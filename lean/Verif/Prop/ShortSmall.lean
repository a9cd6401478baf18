import Verif.Prop.Shortest
import Verif.Proof.Amount

/-!
# Short decimals survive, subnormal numbers included (C47)
-/

namespace Floaxie

open Spec FloatType

/-- The rounding interval is narrow enough for decimals of `D` digits. -/
theorem narrow_interval {T : FloatType} {bits : Nat} (hf : IsFinite T bits) {D : Nat} (hD : D ≤ decimalDigits T)
    (hb : 10 ^ D * mag T 1 < |value T bits|) :
    (midAbove T bits - midBelow T bits) * 10 ^ D < midBelow T bits := by
  have hu := emin_pos T
  have hN1 : N T (absPat T 1) = 1 := by cases T <;> decide
  rw [value_abs, mag_eq, hN1, Nat.cast_one, one_mul] at hb
  have hb1 := lt_of_mul_lt_mul_right hb hu.le
  have hb2 : 10 ^ D < N T (absPat T bits) := by exact_mod_cast hb1
  obtain ⟨q1, q2⟩ := mids_eq hf
  rw [q1, q2]
  have ha : absPat T bits ≠ 0 := by
    intro h; rw [h, N_zero] at hb2; exact absurd hb2 (by simp)
  have g1 : N T (absPat T bits) = N T (absPat T bits - 1) + ulpN T (absPat T bits - 1) := by
    have := N_succ T (absPat T bits - 1)
    rwa [Nat.sub_add_cancel (by omega)] at this
  have g2 := N_succ T (absPat T bits)
  have g3 : ulpN T (absPat T bits - 1) ≤ ulpN T (absPat T bits) := ulpN_mono (by omega)
  have hU := ulpN_pos T (absPat T bits)
  -- the magnitude in units of the gap above
  have g5 : 10 ^ D * ulpN T (absPat T bits) + ulpN T (absPat T bits) ≤ N T (absPat T bits) := by
    rcases lt_or_ge (2 ^ (T.p - 1)) (absPat T bits) with h | h
    · obtain ⟨-, -, -, -, g5⟩ := normal_gaps h
      have h1 : 10 ^ D + 1 ≤ 2 ^ (T.p - 1) := by
        have : 10 ^ D ≤ 10 ^ decimalDigits T := Nat.pow_le_pow_right (by norm_num) hD
        refine (Nat.add_le_add_right this 1).trans ?_
        cases T <;> decide
      nlinarith
    · have : ulpN T (absPat T bits) = 1 := by
        have h1 : absPat T bits / 2 ^ (T.p - 1) ≤ 1 := by
          have := Nat.div_le_div_right (c := 2 ^ (T.p - 1)) h
          rwa [Nat.div_self (by positivity)] at this
        unfold ulpN
        rw [Nat.sub_eq_zero_of_le h1, pow_zero]
      rw [this]; omega
  generalize N T (absPat T bits) = M at *
  generalize N T (absPat T bits + 1) = Mp at *
  generalize N T (absPat T bits - 1) = Mm at *
  generalize ulpN T (absPat T bits) = U at *
  generalize ulpN T (absPat T bits - 1) = V at *
  have e1 : (M : ℚ) = Mm + V := by exact_mod_cast g1
  have e2 : (Mp : ℚ) = M + U := by exact_mod_cast g2
  have e3 : (V : ℚ) ≤ U := by exact_mod_cast g3
  have e5 : ((10 : ℚ) ^ D * U + U) ≤ M := by exact_mod_cast g5
  have e6 : (0 : ℚ) < U := by exact_mod_cast hU
  have e : ((M + Mp : ℚ) / 2 * 2 ^ emin T - (Mm + M : ℚ) / 2 * 2 ^ emin T) * 10 ^ D =
      ((U + V) / 2 * 10 ^ D) * 2 ^ emin T := by rw [e2, show (Mm : ℚ) = M - V by linarith]; ring
  rw [e]
  apply mul_lt_mul_of_pos_right _ hu
  have hP : (0 : ℚ) < 10 ^ D := by positivity
  have : (U + V : ℚ) / 2 * 10 ^ D ≤ U * 10 ^ D := mul_le_mul_of_nonneg_right (by linarith) hP.le
  linarith

/-- **C47 for all values.** A decimal number of at most `D` significant digits (15 / 6 at most) is printed as itself, if
it lies safely inside the rounding interval of a value whose magnitude is more than `10^D` and at least `2^32`
(`float`: `2^16`) times the least positive value. -/
theorem C47_small (T : FloatType) (bits : Nat) (hf : IsFinite T bits) (D : Nat) (hD : D ≤ decimalDigits T)
    (hb : 10 ^ D * mag T 1 < |value T bits|) (hs : 2 ^ (T.W / 2) * mag T 1 ≤ |value T bits|)
    (d : Nat) (j : Int) (hd : d < 10 ^ D) (hw : SafelyInside T bits (d * 10 ^ j)) :
    ∃ n : Numeral, Prints T bits n.text ∧ n.absValue = d * 10 ^ j := by
  have hu := emin_pos T
  have h0 : value T bits ≠ 0 := by
    intro h
    rw [h, abs_zero, mag_eq] at hb
    have : 0 ≤ (10 : ℚ) ^ D * (N T (absPat T 1) * 2 ^ emin T) := by positivity
    linarith
  obtain ⟨n, ds, k, p1, p2, p3⟩ := C45_shortest T bits hf h0
  refine ⟨n, p1, ?_⟩
  have hle := p3 (.inl hs) d j hw
  have hlen : ds.length ≤ D := by
    have := (Nat.pow_lt_pow_iff_right (by norm_num : 1 < 10)).mp (lt_of_le_of_lt hle hd)
    omega
  have hlt : digitsVal ds < 10 ^ D :=
    lt_of_lt_of_le (digitsVal_lt ds) (Nat.pow_le_pow_right (by norm_num) hlen)
  -- the printed number is in the interval
  obtain ⟨m, -, m2, m3⟩ := C01_ftoa_identifies T bits hf h0
  have hnm : n = m := numeral_text_inj _ _ (prints_unique p1 m2)
  subst hnm
  have m4 := identifies_abs m3 h0
  rw [abs_value_num] at m4
  obtain ⟨i1, i2⟩ := identifies_mids (absPat_lt_posInf hf) (abs_ne_zero_of_value h0) m4
  obtain ⟨q1, q2⟩ := mids_eq hf
  rw [← q1, p2.value] at i1
  rw [← q2, p2.value] at i2
  have hwid := narrow_interval hf hD hb
  have hmb : 0 ≤ midBelow T bits := by rw [q1]; positivity
  have hcut : 0 ≤ stepAbove T bits / margin T := by
    apply div_nonneg _ (by positivity)
    rw [stepAbove_eq hf]
    have : (N T (absPat T bits) : ℚ) ≤ N T (absPat T bits + 1) := by exact_mod_cast N_le (Nat.le_succ _)
    exact mul_nonneg (by linarith) hu.le
  have hmp : 0 < midBelow T bits := by
    rw [q1]
    have hN : (0 : ℚ) < N T (absPat T bits) := by
      have := N_lt (T := T) (Nat.pos_of_ne_zero (abs_ne_zero_of_value h0))
      rw [N_zero] at this
      exact_mod_cast this
    positivity
  obtain ⟨w1, w2⟩ := hw
  have hdpos : 0 < d := by
    rcases Nat.eq_zero_or_pos d with rfl | h
    · simp only [Nat.cast_zero, zero_mul] at w1; linarith
    · exact h
  have hDpos : 0 < digitsVal ds := by
    rcases Nat.eq_zero_or_pos (digitsVal ds) with h | h
    · rw [h] at i1; simp only [Nat.cast_zero, zero_mul] at i1; linarith
    · exact h
  have hP : (0 : ℚ) < 10 ^ D := by positivity
  rw [p2.value]
  rcases lt_trichotomy ((digitsVal ds : ℚ) * 10 ^ k) (d * 10 ^ j) with hlt' | heq | hlt'
  · exfalso
    have := decimal_spacing hlt hd hDpos hlt'
    have h2 : (d * 10 ^ j - digitsVal ds * 10 ^ k : ℚ) * 10 ^ D ≤
        (midAbove T bits - midBelow T bits) * 10 ^ D := mul_le_mul_of_nonneg_right (by linarith) hP.le
    linarith
  · exact heq
  · exfalso
    have := decimal_spacing hd hlt hdpos hlt'
    have h2 : (digitsVal ds * 10 ^ k - d * 10 ^ j : ℚ) * 10 ^ D ≤
        (midAbove T bits - midBelow T bits) * 10 ^ D := mul_le_mul_of_nonneg_right (by linarith) hP.le
    linarith

/-- The bound `2^32` (`float`: `2^16`) on the magnitude is needed: two subnormal numbers below it that are not printed as
a decimal of eight (three) digits safely inside their rounding intervals. -/
theorem C47_small_needed :
    (10 ^ 8 * mag .double 1 < |value .double 475049504| ∧
      SafelyInside .double 475049504 ((23470564 : ℕ) * 10 ^ (-322 : ℤ)) ∧
      Prints .double 475049504 (chars "2.347056402e-315")) ∧
    (10 ^ 3 * mag .float 1 < |value .float 9563| ∧
      SafelyInside .float 9563 ((134 : ℕ) * 10 ^ (-43 : ℤ)) ∧
      Prints .float 9563 (chars "1.3401e-41")) :=
  ⟨⟨by decide +kernel, by constructor <;> decide +kernel, prints_of_string (by decide) (by decide +kernel)⟩,
   by decide +kernel, by constructor <;> decide +kernel, prints_of_string (by decide) (by decide +kernel)⟩

/-- The hypotheses are met by a subnormal number. -/
example :
    IsFinite .double (2 ^ 40) ∧ 10 ^ 12 * mag .double 1 < |value .double (2 ^ 40)| ∧
      2 ^ (FloatType.double.W / 2) * mag .double 1 ≤ |value .double (2 ^ 40)| ∧
      SafelyInside .double (2 ^ 40) ((543230922487 : ℕ) * 10 ^ (-323 : ℤ)) :=
  ⟨isFinite_of_lt (by decide), by decide +kernel, by decide +kernel, by constructor <;> decide +kernel⟩

end Floaxie
