import Verif.Proof.Carry

/-!
# The lost carry, for decimals in general (C21)
-/

namespace Floaxie

open Spec FloatType

theorem Mid_mono' {T : FloatType} {a c : Nat} (h : a ≤ c) : Mid T a ≤ Mid T c := by
  unfold Mid
  apply mul_le_mul_of_nonneg_right _ (emin_pos T).le
  have h1 : (N T a : ℚ) ≤ N T c := by exact_mod_cast N_le (T := T) h
  have h2 : (N T (a + 1) : ℚ) ≤ N T (c + 1) := by exact_mod_cast N_le (T := T) (Nat.succ_le_succ h)
  linarith

/-- The datum `2^j`, and the middle between it and its lower neighbour. -/
theorem exists_pow2_mid {T : FloatType} {j : Int} (h1 : T.minExp - 1 ≤ j) (h2 : j < T.maxExp) :
    ∃ a, a + 1 < posInf T ∧ (a + 1) % 2 ^ (T.p - 1) = 0 ∧ (N T (a + 1) : ℚ) * 2 ^ emin T = 2 ^ j ∧
      Mid T a = 2 ^ j - 2 ^ (max (j - T.p) (emin T)) / 2 := by
  obtain ⟨a, a1, a2, a3, a4, a5⟩ := exists_pow2 (T := T) h1 h2
  obtain ⟨a, rfl⟩ : ∃ c, a = c + 1 := ⟨a - 1, by omega⟩
  refine ⟨a, a1, a3, a4, ?_⟩
  have h6 : (N T (a + 1) : ℚ) = N T a + ulpN T a := by exact_mod_cast N_succ T a
  have hg : (ulpN T a : ℚ) * 2 ^ emin T = 2 ^ (max (j - T.p) (emin T)) := by
    rcases lt_or_ge j T.minExp with hj | hj
    · have hj' : j = T.minExp - 1 := by omega
      have hmax : max (j - T.p) (emin T) = emin T := max_eq_right (by unfold emin; omega)
      rw [hmax]
      have ha : a + 1 = 2 ^ (T.p - 1) := by
        apply N_inj (T := T)
        have hN : (N T (2 ^ (T.p - 1)) : ℚ) = 2 ^ (T.p - 1) := by
          have : N T (2 ^ (T.p - 1)) = 2 ^ (T.p - 1) := by cases T <;> decide
          rw [this]; push_cast; rfl
        have h7 : (2 : ℚ) ^ j = 2 ^ (T.p - 1) * 2 ^ emin T := by
          rw [← zpow_natCast, ← zpow_add₀ (by norm_num)]
          congr 1
          have : 1 ≤ T.p := by cases T <;> decide
          unfold emin; push_cast [Nat.cast_sub this]; omega
        rw [h7, ← hN] at a4
        exact_mod_cast mul_right_cancel₀ (emin_pos T).ne' a4
      have hu : ulpN T a = 1 := by
        unfold ulpN
        rw [Nat.div_eq_of_lt (by omega)]
        rfl
      rw [hu]; simp
    · have hmax : max (j - T.p) (emin T) = j - T.p := max_eq_left (by unfold emin; omega)
      rw [hmax]
      have := a5 hj
      rwa [Nat.add_sub_cancel] at this
  unfold Mid
  rw [← a4, ← hg, h6]
  ring

/-- **C21, decimals.** Let a numeral of at most 19 (double) / 9 (float) significant
digits be below a power of two `2^j` (at least the smallest normal number, at
most the greatest power of two of the type) and above the middle between `2^j`
and its lower neighbour, and not nearer than a relative `5/2^W` to either.  It
should be read as `2^j`.  `atof` returns `2^(j-1)`, or zero if `2^j` is the
smallest normal number, with the right sign and status success, and without
consulting the fallback. -/
theorem C21_carry_lost_decimals (T : FloatType) (fb : Fallback) (errno : Nat) (mem : List Nat) (str : Nat)
    (n : Numeral) (h : NumeralAt mem str n) (m : Nat) (k : Int) (hm : m < 10 ^ T.digits10)
    (hmk : n.absValue = m * 10 ^ k) (hk : T = .float → -50 ≤ k) (j : Int) (hj1 : T.minExp - 1 ≤ j) (hj2 : j < T.maxExp)
    (hlo : 2 ^ j - 2 ^ (max (j - T.p) (emin T)) / 2 ≤ n.absValue * (1 - 5 / 2 ^ T.W))
    (hhi : n.absValue * (1 + 5 / 2 ^ T.W) ≤ 2 ^ j) :
    ∃ b v, RoundsTo T n.value b ∧ |value T b| = 2 ^ j ∧
      atof T fb errno mem str = .ok ⟨v, .success, str + n.text.length, errno, false⟩ ∧
      |value T v| = (if j = T.minExp - 1 then 0 else 2 ^ (j - 1)) ∧ signBit T v = signBit T b := by
  obtain ⟨a, a1, a2, a3, a4⟩ := exists_pow2_mid (T := T) hj1 hj2
  rw [← a4] at hlo
  have hu := emin_pos T
  have hd : (0 : ℚ) < 5 / 2 ^ T.W := by positivity
  have hnn := absValue_nonneg n
  have ha0 : a ≠ 0 := by
    rintro rfl
    have : (0 + 1) % 2 ^ (T.p - 1) ≠ 0 := by cases T <;> decide
    exact this a2
  -- the middle is above the least subnormal
  have hmid1 : 2 ^ emin T ≤ Mid T a := by
    have h1 : (1 : ℚ) ≤ N T a := by
      have := N_lt (T := T) (Nat.pos_of_ne_zero ha0)
      rw [N_zero] at this
      exact_mod_cast this
    have h2 : (N T a : ℚ) ≤ N T (a + 1) := by exact_mod_cast N_le (T := T) (Nat.le_succ a)
    unfold Mid
    have := mul_le_mul_of_nonneg_right (show (1 : ℚ) ≤ (N T a + N T (a + 1)) / 2 by linarith) hu.le
    linarith
  have hx0 : 0 < n.absValue := by
    rcases hnn.lt_or_eq with c | c
    · exact c
    · rw [← c] at hlo; linarith
  have hprod : 0 < n.absValue * (5 / 2 ^ T.W) := by positivity
  rw [mul_sub, mul_one] at hlo
  rw [mul_add, mul_one] at hhi
  have hxlo : Mid T a < n.absValue := by linarith
  have hxhi : n.absValue < 2 ^ j := by linarith
  have hVmid : (2 : ℚ) ^ j < Mid T (a + 1) := by
    rw [← a3]; unfold Mid
    apply mul_lt_mul_of_pos_right _ hu
    have : (N T (a + 1) : ℚ) < N T (a + 1 + 1) := by exact_mod_cast N_lt (T := T) (Nat.lt_succ_self _)
    linarith
  have hid : Identifies T n.absValue (a + 1) := by
    have hxX : n.absValue = n.absValue / 2 ^ emin T * 2 ^ emin T := by field_simp
    rw [hxX]
    refine closest_pos a1 (by positivity) (Or.inr ?_) ?_
    · rw [Nat.add_sub_cancel]
      apply lt_of_mul_lt_mul_right _ hu.le
      rw [mul_assoc, ← hxX]
      unfold Mid at hxlo; linarith
    · apply lt_of_mul_lt_mul_right _ hu.le
      rw [mul_assoc, ← hxX]
      have := lt_trans hxhi hVmid
      unfold Mid at this; linarith
  have hlt : n.absValue < overflowThreshold T := by
    have := hid.2.1
    rwa [abs_of_nonneg hnn] at this
  obtain ⟨v, acc, k1, k2, k3⟩ := krosh_carry (T := T) h hm hmk hk (by linarith) hlt
  obtain ⟨r, r1, r2, -⟩ := atof_numeral (fb := fb) (errno := errno) h k1
  cases acc with
  | false =>
    obtain ⟨c, -, c2⟩ := k3 rfl
    obtain ⟨c3, c4⟩ := abs_lt.mp c2
    rcases Nat.lt_or_ge a c with hc | hc
    · have := Mid_mono' (T := T) (show a + 1 ≤ c from hc)
      linarith
    · have := Mid_mono' (T := T) hc
      linarith
  | true =>
    obtain ⟨b, b1, b2, b3⟩ := k2 rfl
    have hab : absPat T b = a + 1 := by
      have h5 := identifies_abs b2 b1
      rw [abs_value_num] at h5
      have h6 := identifies_value_unique h5 hid
      have hl := absPat_lt_posInf b2.1
      rw [value_of_lt hl, value_of_lt a1] at h6
      apply N_inj (T := T)
      exact_mod_cast mul_right_cancel₀ hu.ne' h6
    have hvb : |value T b| = 2 ^ j := by rw [value_abs, hab, a3]
    refine ⟨b, v, identifies_roundsTo b2 b1, hvb, by rw [r1, r2 rfl], ?_⟩
    rcases b3 with ⟨-, b3⟩ | ⟨-, b4, i, i1, i2, i3, i4⟩
    · have := b3 (by rw [hab]; exact a2)
      rw [hvb, mul_add, mul_one] at this
      linarith
    · have hij : j = i := by
        rw [hvb] at i2
        exact zpow_right_injective₀ (by norm_num) (by norm_num) i2
      rw [hij]
      exact ⟨i4, b4⟩

/-- "0.99999999999999999" -/
def nines : Numeral := ⟨none, [0], some [9,9,9,9,9,9,9,9,9,9,9,9,9,9,9,9,9], none⟩

theorem nines_at : NumeralAt (nines.text ++ [0]) 0 nines :=
  numeralAt_cstr ⟨by decide, by intro e he; cases he⟩ (by decide) (by intro e he; cases he)

theorem nines_abs : nines.absValue = (99999999999999999 : Nat) * 10 ^ (-17 : Int) := by
  norm_num [nines, Numeral.absValue, Numeral.fracDigits, Numeral.expValue, digitsVal]

/-- The hypotheses are met by "0.99999999999999999" (`double`), which is read as one half. -/
example (fb : Fallback) : ∃ b v, RoundsTo .double nines.value b ∧ |value .double b| = 2 ^ (0 : Int) ∧
      atof .double fb 0 (nines.text ++ [0]) 0 = .ok ⟨v, .success, 0 + nines.text.length, 0, false⟩ ∧
      |value .double v| = (if (0 : Int) = FloatType.double.minExp - 1 then 0 else 2 ^ ((0 : Int) - 1)) ∧
      signBit .double v = signBit .double b :=
  C21_carry_lost_decimals .double fb 0 _ 0 nines nines_at 99999999999999999 (-17) (by decide) nines_abs (by simp)
    0 (by decide) (by decide)
    (by rw [nines_abs, show max ((0 : Int) - FloatType.double.p) (emin .double) = -53 by decide]
        norm_num [FloatType.W])
    (by rw [nines_abs]; norm_num [FloatType.W])

end Floaxie
