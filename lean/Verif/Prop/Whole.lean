import Verif.Proof.Whole

/-!
# Whole numbers: a complete account (C75)
-/

namespace Floaxie

open Spec FloatType

theorem shortWhole_of_lt {T : FloatType} {M : Nat} (h0 : 0 < M) (h : M < 10 ^ T.digits10) : ShortWhole T M :=
  ⟨M, 0, h0, h, by simp, Or.inl rfl⟩

/-- **C75.** A numeral, however spelled, whose magnitude is a whole number `M` of
at most 19 (double) / 9 (float) digits, or such a number followed by a few zeros:
* if `M` is half way between two adjacent values, `atof` asks the fallback;
* if `M` is just below a power of two, so that it should be rounded up to it,
  `atof` returns half of it, with the right sign and status success;
* in every other case `atof` returns the correctly rounded value;
in the last two cases without the fallback, consuming exactly the numeral and
leaving `errno` alone.  The three cases exclude each other. -/
theorem C75_whole_numbers (T : FloatType) (fb : Fallback) (errno : Nat) (mem : List Nat) (str : Nat)
    (n : Numeral) (h : NumeralAt mem str n) (M : Nat) (hM : ShortWhole T M) (hv : n.absValue = M) :
    ∃ r, atof T fb errno mem str = .ok r ∧
      (HalfWay T M → Delegated T fb errno mem str r) ∧
      (JustBelowPow2 T M → ∃ b v, RoundsTo T n.value b ∧ (∃ j : Nat, |value T b| = 2 ^ j) ∧
        Converted errno str n v r ∧ |value T v| = |value T b| / 2 ∧ signBit T v = signBit T b) ∧
      (¬ HalfWay T M → ¬ JustBelowPow2 T M → ∃ b, RoundsTo T n.value b ∧ Converted errno str n b r) ∧
      ¬ (HalfWay T M ∧ JustBelowPow2 T M) := by
  obtain ⟨m, k, hm0, hm, rfl, hE⟩ := hM
  have hb := exact_bound hm0 hm hE
  have hb' : m * 10 ^ k < 2 ^ 120 := lt_trans hb (by decide)
  have hM0 : 0 < m * 10 ^ k := by positivity
  have hx2 : n.absValue < overflowThreshold T := by rw [hv]; exact lt_threshold_of hb'
  obtain ⟨v, acc, k1, k2, k3⟩ := krosh_exact h hm0 hm hE (by rw [hv]; push_cast; rfl) hx2
  have hhalf : acc = false ↔ HalfWay T (m * 10 ^ k) := by
    rw [k3]
    constructor
    · rintro ⟨a, -, a2⟩; exact halfWay_of_mid (hv ▸ a2)
    · intro hh
      rw [hv] at hx2 ⊢
      exact mid_of_halfWay hh hx2
  obtain ⟨r, r1, r2, r3⟩ := atof_numeral (fb := fb) (errno := errno) h k1
  have hdisj : ¬ (HalfWay T (m * 10 ^ k) ∧ JustBelowPow2 T (m * 10 ^ k)) := by
    rintro ⟨c1, c2⟩
    obtain ⟨a, a1, a2⟩ := mid_of_halfWay c1 (hv ▸ hx2)
    obtain ⟨j, b, -, -, -, -, -, b5⟩ := pow2_of_justBelow c2 hb'
    exact not_identifies_mid a1 a2 (hv ▸ hx2) b5
  have habs : ∀ {b}, value T b ≠ 0 → Identifies T n.value b → Identifies T ((m * 10 ^ k : Nat) : ℚ) (absPat T b) := by
    intro b hb0 hid
    have := identifies_abs hid hb0
    rwa [abs_value_num, hv] at this
  have hav : ∀ {b}, IsFinite T b → |value T (absPat T b)| = |value T b| := by
    intro b hf
    rw [value_abs_of_lt (absPat_lt_posInf hf), value_abs]
  refine ⟨r, r1, fun c => r3 (hhalf.mpr c), ?_, ?_, hdisj⟩
  · intro c
    have ht : acc = true := by
      cases acc
      · exact absurd ⟨hhalf.mp rfl, c⟩ hdisj
      · rfl
    obtain ⟨b, b0, b1, b2⟩ := k2 ht
    obtain ⟨j, a, a1, a2, a3, a4, a5, a6⟩ := pow2_of_justBelow c hb'
    have hb2 := habs b0 b1
    have hvb : |value T b| = 2 ^ j := by
      rw [← a3, ← identifies_value_unique hb2 a6, hav b1.1]
    refine ⟨b, v, identifies_roundsTo b1 b0, ⟨j, hvb⟩, r2 ht, ?_⟩
    rcases b2 with ⟨-, b3⟩ | ⟨-, b4, i, i1, i2, i3, i4⟩
    · have hap : absPat T b % 2 ^ (T.p - 1) = 0 := by
        have hab : absPat T b = a := by
          rw [← a3, value_abs, value_abs_of_lt a1] at hvb
          apply N_inj (T := T)
          exact_mod_cast mul_right_cancel₀ (emin_pos T).ne' hvb
        rw [hab]; exact a2
      have := b3 hap
      rw [hvb, hv] at this
      linarith
    · refine ⟨?_, b4⟩
      have hij : (j : Int) = i := by
        rw [hvb, ← zpow_natCast] at i2
        exact zpow_right_injective₀ (by norm_num) (by norm_num) i2
      have : T.minExp ≤ -1 := by cases T <;> decide
      rw [i4, if_neg (by omega), ← hij, zpow_sub_one₀ (by norm_num), zpow_natCast, hvb]; ring
  · intro c1 c2
    have ht : acc = true := by
      cases acc
      · exact absurd (hhalf.mp rfl) c1
      · rfl
    obtain ⟨b, b0, b1, b2⟩ := k2 ht
    refine ⟨b, identifies_roundsTo b1 b0, ?_⟩
    rcases b2 with ⟨b3, -⟩ | ⟨-, b4, i, i1, i2, i3, i4⟩
    · rw [← b3]; exact r2 ht
    · exfalso
      apply c2
      have hl := absPat_lt_posInf b1.1
      rw [abs_value_num, hv] at i3
      refine justBelow_of_identifies (habs b0 b1) hl ?_ i3 hM0
      rw [← i2, ← hav b1.1, abs_of_nonneg]
      rw [value_of_lt hl]; have := emin_pos T; positivity

/-- Each of the three cases occurs: `2^53 + 1` is half way, `2^63 - 1` just below a
power of two, `1234567890123456789` and `10^22` are neither. -/
theorem tie53_halfWay : HalfWay .double (2 ^ 53 + 1) := ⟨2 ^ 52, 0, by decide, by decide, by decide⟩

theorem maxInt64_justBelow : JustBelowPow2 .double (2 ^ 63 - 1) := ⟨63, by decide, by decide⟩

/-- The numeral "1234567890123456789". -/
def ascending : Numeral := ⟨none, [1,2,3,4,5,6,7,8,9,0,1,2,3,4,5,6,7,8,9], none, none⟩

theorem ascending_at : NumeralAt (ascending.text ++ [0]) 0 ascending :=
  numeralAt_cstr ⟨by decide, by intro e he; cases he⟩ (by decide) (by intro e he; cases he)

theorem ascending_abs : ascending.absValue = (1234567890123456789 : Nat) := by
  norm_num [ascending, Numeral.absValue, Numeral.fracDigits, Numeral.expValue, digitsVal]

/-- An odd number of more than `p + 1` bits is not half way. -/
theorem not_halfWay_odd {T : FloatType} {M : Nat} (h : M % 2 = 1) (h2 : 2 ^ (T.p + 1) ≤ M) : ¬ HalfWay T M := by
  rintro ⟨q, i, h3, -, h5⟩
  rcases Nat.eq_zero_or_pos i with c | c
  · subst c; omega
  · obtain ⟨i, rfl⟩ : ∃ k, i = k + 1 := ⟨i - 1, by omega⟩
    rw [pow_succ, ← mul_assoc] at h3; omega

/-- Enough to check the next power of two. -/
theorem not_justBelow {T : FloatType} {M j : Nat} (h1 : 2 ^ j ≤ M) (h2 : M < 2 ^ (j + 1))
    (h3 : 2 ^ (j + 1) ≤ (2 ^ (j + 1) - M) * 2 ^ (T.p + 1)) : ¬ JustBelowPow2 T M := by
  rintro ⟨i, g1, g2⟩
  have hij : j < i := (Nat.pow_lt_pow_iff_right (show 1 < 2 by norm_num)).mp (lt_of_le_of_lt h1 g1)
  rcases Nat.lt_or_ge (j + 1) i with c | c
  · have h4 : 2 ≤ 2 ^ (T.p + 1) := by cases T <;> decide
    have h5 : (2 ^ i - M) * 2 ≤ (2 ^ i - M) * 2 ^ (T.p + 1) := Nat.mul_le_mul_left _ h4
    have h6 : 2 ^ (j + 1 + 1) ≤ 2 ^ i := Nat.pow_le_pow_right (by norm_num) c
    rw [pow_succ] at h6
    omega
  · obtain rfl : i = j + 1 := by omega
    omega

example (fb : Fallback) : ∃ r b, atof .double fb 0 (ascending.text ++ [0]) 0 = .ok r ∧
    RoundsTo .double ascending.value b ∧ Converted 0 0 ascending b r := by
  obtain ⟨r, r1, -, -, r2, -⟩ := C75_whole_numbers .double fb 0 _ 0 ascending ascending_at 1234567890123456789
    (shortWhole_of_lt (by decide) (by decide)) ascending_abs
  obtain ⟨b, b1, b2⟩ := r2 (not_halfWay_odd (by decide) (by decide)) (not_justBelow (j := 60) (by decide) (by decide) (by decide))
  exact ⟨r, b, r1, b1, b2⟩

example (fb : Fallback) : ∃ r, atof .double fb 0 (tie53.text ++ [0]) 0 = .ok r ∧
    Delegated .double fb 0 (tie53.text ++ [0]) 0 r := by
  obtain ⟨r, r1, r2, -⟩ := C75_whole_numbers .double fb 0 _ 0 tie53 tie53_at (2 ^ 53 + 1)
    (shortWhole_of_lt (by decide) (by decide))
    (by norm_num [tie53, Numeral.absValue, Numeral.fracDigits, Numeral.expValue, digitsVal])
  exact ⟨r, r1, r2 tie53_halfWay⟩

/-- `10^22` is within the scope, and is neither. -/
example : ShortWhole .double (10 ^ 22) ∧ ¬ HalfWay .double (10 ^ 22) ∧ ¬ JustBelowPow2 .double (10 ^ 22) := by
  refine ⟨⟨1, 22, by decide, by decide, by decide, Or.inr (by decide)⟩, ?_, not_justBelow (j := 73) (by decide) (by decide) (by decide)⟩
  rintro ⟨q, i, h1, h2, h3⟩
  have h4 : 2 ^ i < 2 ^ 21 := by
    have h5 : 10 ^ 22 < 2 ^ 53 * 2 ^ 21 := by decide
    have h6 : 2 ^ 53 * 2 ^ i ≤ (2 * q + 1) * 2 ^ i := Nat.mul_le_mul_right _ h2
    rw [← h1] at h6
    exact Nat.lt_of_mul_lt_mul_left (lt_of_le_of_lt h6 h5)
  have h5 : i < 21 := (Nat.pow_lt_pow_iff_right (show 1 < 2 by norm_num)).mp h4
  interval_cases i <;> omega

end Floaxie
