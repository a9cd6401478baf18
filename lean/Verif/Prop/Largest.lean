import Verif.Prop.Shortest
import Verif.Proof.Upper

/-!
# Which of the shortest numbers is printed (C65)
-/

namespace Floaxie
open Spec FloatType

/-- **C65.** For every finite value other than zero, subnormal numbers included: the
printed number lies in the rounding interval and is at least as great as every decimal number with its last place (or
a higher one) that does not come nearer to the upper end of that interval than 1/63
(`float`) or 1/511 (`double`) of the distance to the upper neighbour.  Adding one to the last printed digit
therefore never gives another number well inside. -/
theorem C65_largest (T : FloatType) (bits : Nat) (h : IsFinite T bits) (h0 : value T bits ≠ 0) :
    ∃ (n : Numeral) (ds : List (Fin 10)) (k : Int), Prints T bits n.text ∧ SignificantDigits n ds k ∧
      midBelow T bits < n.absValue ∧ n.absValue < midAbove T bits ∧
      ∀ (d : Nat) (j : Int), k ≤ j →
        (d * 10 ^ j : ℚ) ≤ midAbove T bits - stepAbove T bits / margin T →
        d * 10 ^ j ≤ n.absValue := by
  obtain ⟨ds, k, b1, ⟨hne, hh, hla⟩, b3, b4, a6, b5⟩ := upper_main T bits h h0
  have hval : (fmtNumeral (decide (signBit T bits = 1)) ds k).absValue = digitsVal ds * 10 ^ k :=
    fmt_absValue _ ds k hne (fmtK b1 hne b4)
  have hm := identifies_mids (absPat_lt_posInf h) (abs_ne_zero_of_value h0) b3
  rw [← (mids_eq h).1, ← (mids_eq h).2, ← hval] at hm
  refine ⟨_, ds, k, b5, ⟨hne, ?_, ?_, fmt_digits _ ds k hne, hval⟩, hm.1, hm.2, ?_⟩
  · rw [List.head?_eq_some_head hne]; simpa using hh
  · rw [List.getLast?_eq_some_getLast hne]; simpa using hla
  · intro d j hj hB
    obtain ⟨i, rfl⟩ : ∃ i : Nat, j = k + i := ⟨(j - k).toNat, by omega⟩
    have hk0 : (0 : ℚ) < 10 ^ k := by positivity
    have e : (d : ℚ) * 10 ^ (k + (i : Int)) = ((d * 10 ^ i : ℕ) : ℚ) * 10 ^ k := by
      rw [zpow_add₀ (by norm_num), zpow_natCast]; push_cast; ring
    rw [hval, e]
    rw [e] at hB
    have h1 : ((d * 10 ^ i : ℕ) : ℚ) < (digitsVal ds + 1 : ℕ) :=
      lt_of_mul_lt_mul_right (lt_of_le_of_lt hB (by push_cast; exact a6)) hk0.le
    have h2 : d * 10 ^ i ≤ digitsVal ds := Nat.le_of_lt_succ (by exact_mod_cast h1)
    exact mul_le_mul_of_nonneg_right (by exact_mod_cast h2) hk0.le

/-- **C65, the ideal claim is refuted.** The printed number need not be the one
nearest to the value among those with as many digits: the largest finite double is
printed as 1.7976931348623158e308 although 1.7976931348623157e308 is nearer to
it, and a `float` near 1.00001764 is printed as 1.0000177, not 1.0000176. -/
theorem C65_not_closest :
    (Prints .double 0x7FEFFFFFFFFFFFFF (chars "1.7976931348623158e308") ∧
      |(17976931348623157 * 10 ^ 292 : ℚ) - value .double 0x7FEFFFFFFFFFFFFF| <
        |(17976931348623158 * 10 ^ 292 : ℚ) - value .double 0x7FEFFFFFFFFFFFFF|) ∧
    (Prints .float 0x3F800094 (chars "1.0000177") ∧
      |(10000176 / 10 ^ 7 : ℚ) - value .float 0x3F800094| < |(10000177 / 10 ^ 7 : ℚ) - value .float 0x3F800094|) :=
  ⟨⟨prints_eval (by decide) (by decide +kernel), by decide +kernel⟩,
    prints_eval (by decide) (by decide +kernel), by decide +kernel⟩

/-- The hypotheses are met: 10000176e-7 and 10000177e-7 are well inside, so the text
of that `float` is at least the latter. -/
example : IsFinite .float 0x3F800094 ∧ value .float 0x3F800094 ≠ 0 ∧
    SafelyInside .float 0x3F800094 ((10000176 : ℕ) * 10 ^ (-7 : ℤ)) ∧
    SafelyInside .float 0x3F800094 ((10000177 : ℕ) * 10 ^ (-7 : ℤ)) := by
  refine ⟨⟨by decide, by decide⟩, by decide +kernel, ?_, ?_⟩ <;> · unfold SafelyInside; decide +kernel

/-- A subnormal one: for the fifth `float` above zero, printed 7.707e-45, 7676e-48 is
within the limit and 7708e-48 is not. -/
example : IsFinite .float 5 ∧ value .float 5 ≠ 0 ∧ Prints .float 5 (chars "7.707e-45") ∧
    ((7676 : ℕ) * 10 ^ (-48 : ℤ) : ℚ) ≤ midAbove .float 5 - stepAbove .float 5 / margin .float ∧
    ¬ ((7708 : ℕ) * 10 ^ (-48 : ℤ) : ℚ) ≤ midAbove .float 5 - stepAbove .float 5 / margin .float :=
  ⟨⟨by decide, by decide⟩, by decide +kernel, prints_eval (by decide) (by decide +kernel), by decide +kernel, by decide +kernel⟩

end Floaxie
