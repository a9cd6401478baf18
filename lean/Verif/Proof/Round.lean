import Verif.Proof.Scale

/-! # Rounding the scaled number -/

namespace Floaxie

open Spec FloatType

theorem near_lt {f j m : Nat} {y : ℚ} (hj : j ≤ 1) (hd : 2 ^ j ∣ f) (hy : |y - f| < 2 ^ j)
    (hm : 2 ∣ m) (h : f < m) : y < m := by
  rw [abs_lt] at hy
  have h2 : f + 2 ^ j ≤ m := by
    interval_cases j
    · simp; omega
    · rw [pow_one] at hd ⊢; omega
  have : (f : ℚ) + 2 ^ j ≤ m := by exact_mod_cast h2
  linarith [hy.2]

theorem near_gt {f j m : Nat} {y : ℚ} (hj : j ≤ 1) (hd : 2 ^ j ∣ f) (hy : |y - f| < 2 ^ j)
    (hm : 2 ∣ m) (h : m < f) : (m : ℚ) < y := by
  rw [abs_lt] at hy
  have h2 : m + 2 ^ j ≤ f := by
    interval_cases j
    · simp; omega
    · rw [pow_one] at hd ⊢; omega
  have : (m : ℚ) + 2 ^ j ≤ f := by exact_mod_cast h2
  linarith [hy.1]

theorem ulpN_mono {T : FloatType} {a b : Nat} (h : a ≤ b) : ulpN T a ≤ ulpN T b := by
  unfold ulpN
  apply Nat.pow_le_pow_right (by norm_num)
  have := Nat.div_le_div_right (c := 2 ^ (T.p - 1)) h
  omega

/-- Going down one pattern at most halves the unit. -/
theorem ulpN_pred {T : FloatType} {a : Nat} : ulpN T a ≤ 2 * ulpN T (a - 1) := by
  unfold ulpN
  rw [← pow_succ']
  apply Nat.pow_le_pow_right (by norm_num)
  have hP : 0 < 2 ^ (T.p - 1) := by positivity
  have h1 : a / 2 ^ (T.p - 1) ≤ (a - 1) / 2 ^ (T.p - 1) + 1 := by
    have : a ≤ (a - 1) + 2 ^ (T.p - 1) := by omega
    calc a / 2 ^ (T.p - 1) ≤ ((a - 1) + 2 ^ (T.p - 1)) / 2 ^ (T.p - 1) := Nat.div_le_div_right this
      _ = _ := Nat.add_div_right _ hP
  omega

set_option maxHeartbeats 800000 in
/-- Outcome of `downsample` on the representation `w` of a number close to `y`
units of its last place.  When the outcome is flagged accurate, `a` is the
pattern of the correctly rounded result (`posInf` on overflow); the code returns
it, or loses the carry into the exponent. -/
theorem downsample_round {T : FloatType} {w : DiyFp} {y : ℚ} {j : Nat}
    (hf1 : 2 ^ (T.W - 1) ≤ w.f) (hf2 : w.f < 2 ^ T.W)
    (he1 : emin T + 1 ≤ w.e + T.W) (he2 : w.e ≤ T.maxExp - T.W)
    (hj : j ≤ 1) (hd : 2 ^ j ∣ w.f) (hy : |y - w.f| < 2 ^ j) :
    ∃ v acc, w.downsample T = .ok { value := v, status := .success, isAccurate := acc } ∧
      (acc = true → ∃ a, a ≤ posInf T ∧ (a < posInf T → Identifies T (y * 2 ^ w.e) a) ∧
        (a = posInf T → overflowThreshold T ≤ y * 2 ^ w.e) ∧
        ((v = a ∧ (a % 2 ^ (T.p - 1) = 0 → (N T a : ℚ) * 2 ^ emin T ≤ w.f * 2 ^ w.e)) ∨
         (a ≠ 0 ∧ a % 2 ^ (T.p - 1) = 0 ∧ (w.f : ℚ) * 2 ^ w.e < N T a * 2 ^ emin T ∧
          y * 2 ^ w.e < N T a * 2 ^ emin T ∧ v = a - 2 ^ (T.p - 1)))) ∧
      (acc = false → ∃ a, a < posInf T ∧
        2 * ((w.f : ℚ) * 2 ^ w.e) = ((N T a : ℚ) + N T (a + 1)) * 2 ^ emin T) := by
  obtain ⟨s, t, a0, hs, ht, hs1, hs2, ha0, hN, hul, -, hdown⟩ := downsample_ok T w hf1 hf2 he1 he2
  refine ⟨_, _, hdown, ?_, ?_⟩
  · intro hacc
    have hacc := of_decide_eq_true hacc
    have hs8 : 8 ≤ s := le_trans (by cases T <;> decide) hs1
    have hu := emin_pos T
    -- units
    have hwe : (2 : ℚ) ^ w.e = 2 ^ t / 2 ^ s * 2 ^ emin T := by
      rw [show w.e = (t : Int) - s + emin T by omega, zpow_add₀ (by norm_num), zpow_sub₀ (by norm_num),
        zpow_natCast, zpow_natCast]
    set S : ℚ := 2 ^ s with hS
    set U : ℚ := 2 ^ t with hU
    have hSp : 0 < S := by positivity
    have hUp : 0 < U := by positivity
    have hS8 : (256 : ℚ) ≤ S := by
      rw [hS]; calc (256 : ℚ) = 2 ^ 8 := by norm_num
        _ ≤ 2 ^ s := pow_le_pow_right₀ (by norm_num) hs8
    have hx : y * 2 ^ w.e = (y * U / S) * 2 ^ emin T := by rw [hwe]; ring
    have hxf : (w.f : ℚ) * 2 ^ w.e = (w.f * U / S) * 2 ^ emin T := by rw [hwe]; ring
    have hj2 : (2 : ℚ) ^ j ≤ 2 := by interval_cases j <;> norm_num
    have hj2' : 2 ^ j ≤ 2 := by interval_cases j <;> norm_num
    have hy' := abs_lt.mp hy
    have hdm := Nat.div_add_mod w.f (2 ^ s)
    have hml := Nat.mod_lt w.f (show 0 < 2 ^ s by positivity)
    have hhalf : 2 ^ s = 2 * 2 ^ (s - 1) := by rw [← pow_succ', Nat.sub_add_cancel (by omega)]
    have hhev : 2 ∣ 2 ^ (s - 1) := dvd_pow_self 2 (by omega)
    set q := w.f / 2 ^ s with hq
    set r := w.f % 2 ^ s with hr
    set H := 2 ^ (s - 1) with hH
    have hSH : S = 2 * H := by rw [hS, hH]; exact_mod_cast hhalf
    have hNa : (N T a0 : ℚ) = q * U := by rw [hN]; push_cast; rfl
    have hNa1 : (N T (a0 + 1) : ℚ) = (q + 1) * U := by
      rw [N_succ, hul, hN]; push_cast; ring
    have hmid : 2 ∣ (2 * q + 1) * H := Dvd.dvd.mul_left hhev _
    have hmidq : (((2 * q + 1) * H : Nat) : ℚ) = (2 * q + 1) * S / 2 := by
      rw [hSH]; push_cast; ring
    have hfq : (w.f : ℚ) = S * q + r := by rw [hS]; exact_mod_cast hdm.symm
    have hfpos : (2 : ℚ) ≤ w.f := by
      have : 2 ≤ 2 ^ (T.W - 1) := by cases T <;> decide
      exact_mod_cast le_trans this hf1
    have hy0 : 0 ≤ y := by linarith [hy'.1]
    have hr0 : (0 : ℚ) ≤ r := by positivity
    have hX0 : 0 ≤ y * U / S := by positivity
    by_cases hup : H < r
    · rw [if_pos (Or.inl hup)]
      have hygt := near_gt hj hd hy hmid (show (2 * q + 1) * H < w.f by
        rw [← hdm, hhalf]
        have : (2 * q + 1) * H = 2 * H * q + H := by ring
        omega)
      rw [hmidq] at hygt
      have hylt : y < (q + 1) * S := by
        have := near_lt hj hd hy (m := (q + 1) * 2 ^ s) (Dvd.dvd.mul_left (dvd_pow_self 2 (by omega)) _) (by
          rw [← hdm]
          have : (q + 1) * 2 ^ s = 2 ^ s * q + 2 ^ s := by ring
          omega)
        rw [hS]; push_cast at this; exact this
      have hlow : (N T a0 : ℚ) + N T (a0 + 1) < 2 * (y * U / S) := by
        rw [hNa, hNa1]
        have e : (q : ℚ) * U + (q + 1) * U = 2 * (((2 * q + 1) * S / 2) * U / S) := by field_simp; ring
        rw [e]
        apply mul_lt_mul_of_pos_left _ (by norm_num)
        apply div_lt_div_of_pos_right _ hSp
        exact mul_lt_mul_of_pos_right hygt hUp
      have hval_lt : y * 2 ^ w.e < N T (a0 + 1) * 2 ^ emin T := by
        rw [hx, hNa1]
        apply mul_lt_mul_of_pos_right _ hu
        rw [div_lt_iff₀ hSp]
        have := mul_lt_mul_of_pos_right hylt hUp
        linarith
      have hvalf_lt : (w.f : ℚ) * 2 ^ w.e < N T (a0 + 1) * 2 ^ emin T := by
        rw [hxf, hNa1]
        apply mul_lt_mul_of_pos_right _ hu
        rw [div_lt_iff₀ hSp]
        have : (r : ℚ) < S := by rw [hS]; exact_mod_cast hml
        rw [hfq]
        have := mul_lt_mul_of_pos_right this hUp
        linarith
      refine ⟨a0 + 1, by omega, ?_, ?_, ?_⟩
      · intro ha
        rw [hx]
        apply closest_pos ha hX0 (Or.inr (by simpa using hlow))
        have h1 := ulpN_mono (T := T) (show a0 ≤ a0 + 1 by omega)
        rw [hul] at h1
        have h1' : U ≤ ulpN T (a0 + 1) := by rw [hU]; exact_mod_cast h1
        rw [N_succ T (a0 + 1)]
        push_cast
        rw [hNa1]
        have h3 : y * U / S < (q + 1) * U := by
          rw [div_lt_iff₀ hSp]
          have := mul_lt_mul_of_pos_right hylt hUp
          linarith
        linarith
      · intro ha
        have h1 := overflowThreshold_eq T
        rw [← ha, Nat.add_sub_cancel] at h1
        rw [hx]
        have := mul_lt_mul_of_pos_right hlow hu
        linarith
      · by_cases hc : (a0 + 1) % 2 ^ (T.p - 1) = 0
        · rw [if_pos hc]
          right
          exact ⟨by omega, hc, hvalf_lt, hval_lt, rfl⟩
        · rw [if_neg hc]
          left
          exact ⟨rfl, fun h => absurd h hc⟩
    · rw [if_neg (by omega)]
      have hylt := near_lt hj hd hy hmid (show w.f < (2 * q + 1) * H by
        rw [← hdm, hhalf]
        have : (2 * q + 1) * H = 2 * H * q + H := by ring
        omega)
      rw [hmidq] at hylt
      refine ⟨a0, by omega, ?_, by omega, Or.inl ⟨rfl, fun _ => ?_⟩⟩
      · intro ha
        rw [hx]
        apply closest_pos ha hX0
        · by_cases ha00 : a0 = 0
          · exact Or.inl ha00
          · right
            have h1 := ulpN_pred (T := T) (a := a0)
            rw [hul] at h1
            have h1' : U ≤ 2 * ulpN T (a0 - 1) := by rw [hU]; exact_mod_cast h1
            have h2 := N_succ T (a0 - 1)
            rw [Nat.sub_add_cancel (by omega)] at h2
            have h2' : (N T a0 : ℚ) = N T (a0 - 1) + ulpN T (a0 - 1) := by exact_mod_cast h2
            have h3 : q * U - U / 4 < y * U / S := by
              rw [lt_div_iff₀ hSp]
              have h4 : S * q - 2 < y := by linarith [hy'.1]
              have h5 := mul_lt_mul_of_pos_right h4 hUp
              have h6 := mul_le_mul_of_nonneg_right hS8 hUp.le
              linarith
            rw [hNa] at h2' ⊢
            linarith
        · rw [hNa, hNa1]
          have e : (q : ℚ) * U + (q + 1) * U = 2 * (((2 * q + 1) * S / 2) * U / S) := by field_simp; ring
          rw [e]
          apply mul_lt_mul_of_pos_left _ (by norm_num)
          apply div_lt_div_of_pos_right _ hSp
          exact mul_lt_mul_of_pos_right hylt hUp
      · rw [hxf, hNa]
        apply mul_le_mul_of_nonneg_right _ hu.le
        rw [le_div_iff₀ hSp, hfq]
        have := mul_nonneg hr0 hUp.le
        linarith
  · intro hacc
    have hacc : w.f % 2 ^ s = 2 ^ (s - 1) := by
      have := of_decide_eq_false hacc
      push Not at this; exact this
    refine ⟨a0, ha0, ?_⟩
    have hdm := Nat.div_add_mod w.f (2 ^ s)
    rw [hacc] at hdm
    have hs8 : 8 ≤ s := le_trans (by cases T <;> decide) hs1
    have hwe : (2 : ℚ) ^ w.e = 2 ^ t / 2 ^ s * 2 ^ emin T := by
      rw [show w.e = (t : Int) - s + emin T by omega, zpow_add₀ (by norm_num), zpow_sub₀ (by norm_num),
        zpow_natCast, zpow_natCast]
    have hhalf : (2 : ℚ) ^ s = 2 * 2 ^ (s - 1) := by rw [← pow_succ', Nat.sub_add_cancel (by omega)]
    rw [N_succ, hul, hN, hwe]
    have hfq : (w.f : ℚ) = 2 ^ s * (w.f / 2 ^ s : Nat) + 2 ^ (s - 1) := by exact_mod_cast hdm.symm
    rw [hfq]
    push_cast
    generalize ((w.f / 2 ^ s : Nat) : ℚ) = q
    rw [hhalf]
    have : (2 : ℚ) ^ (s - 1) ≠ 0 := by positivity
    field_simp
    ring

end Floaxie
