import Verif.Proof.Exact
import Verif.Proof.Backward

/-! # Whole numbers: half way, just below a power of two, or neither -/

namespace Floaxie

open Spec FloatType

theorem mid_eq (T : FloatType) (a : Nat) :
    Mid T a = (2 * sigN T a + 1 : Nat) * 2 ^ (((a / 2 ^ (T.p - 1) - 1 : Nat) : Int) - 1 + emin T) := by
  unfold Mid
  rw [N_succ, N_eq]
  unfold ulpN
  rw [zpow_add₀ (by norm_num), zpow_sub_one₀ (by norm_num), zpow_natCast]
  push_cast
  ring

theorem halfWay_of_mid {T : FloatType} {M a : Nat} (h : (M : ℚ) = Mid T a) : HalfWay T M := by
  rw [mid_eq] at h
  generalize ht : (((a / 2 ^ (T.p - 1) - 1 : Nat) : Int) - 1 + emin T) = t at h
  have ht0 : 0 ≤ t := by
    by_contra hc
    obtain ⟨i, hi⟩ : ∃ i : Nat, t = -((i + 1 : Nat) : Int) := ⟨(-t - 1).toNat, by push_cast; omega⟩
    rw [hi, zpow_neg, zpow_natCast] at h
    have h2 : (2 : ℚ) ^ (i + 1) ≠ 0 := by positivity
    have h3 : ((M * 2 ^ (i + 1) : Nat) : ℚ) = (2 * sigN T a + 1 : Nat) := by
      rw [Nat.cast_mul, h]; push_cast; field_simp
    have h4 : M * 2 ^ (i + 1) = 2 * sigN T a + 1 := by exact_mod_cast h3
    rw [pow_succ, ← mul_assoc] at h4
    omega
  obtain ⟨i, rfl⟩ := Int.eq_ofNat_of_zero_le ht0
  rw [zpow_natCast] at h
  have h4 : M = (2 * sigN T a + 1) * 2 ^ i := by exact_mod_cast h
  have hE : a / 2 ^ (T.p - 1) ≠ 0 := by
    intro h0
    rw [h0] at ht
    have : emin T ≤ 0 := by cases T <;> decide
    simp at ht
    omega
  have h1 : 2 ^ (T.p - 1) ≤ sigN T a := by
    unfold sigN; rw [if_neg hE]; omega
  have h2 := sigN_lt T a
  have h3 : 2 ^ T.p = 2 * 2 ^ (T.p - 1) := by cases T <;> decide
  refine ⟨sigN T a, i, h4, by omega, by rw [pow_succ]; omega⟩

theorem mid_of_halfWay {T : FloatType} {M : Nat} (h : HalfWay T M) (hM : (M : ℚ) < overflowThreshold T) :
    ∃ a, a < posInf T ∧ (M : ℚ) = Mid T a := by
  obtain ⟨q, i, h1, h2, h3⟩ := h
  have h4 : 2 ^ T.p = 2 * 2 ^ (T.p - 1) := by cases T <;> decide
  rw [pow_succ] at h3
  obtain ⟨e, he⟩ : ∃ e : Nat, (e : Int) = i + 1 - emin T :=
    ⟨(i + 1 - emin T).toNat, by have : emin T ≤ 0 := by cases T <;> decide
                                omega⟩
  have hP : 0 < 2 ^ (T.p - 1) := by positivity
  have hd : (2 ^ (T.p - 1) * (e + 1) + (q - 2 ^ (T.p - 1))) / 2 ^ (T.p - 1) = e + 1 := by
    rw [Nat.mul_add_div hP, Nat.div_eq_of_lt (by omega), add_zero]
  have hmod : (2 ^ (T.p - 1) * (e + 1) + (q - 2 ^ (T.p - 1))) % 2 ^ (T.p - 1) = q - 2 ^ (T.p - 1) := by
    rw [Nat.mul_add_mod, Nat.mod_eq_of_lt (by omega)]
  have hmid : (M : ℚ) = Mid T (2 ^ (T.p - 1) * (e + 1) + (q - 2 ^ (T.p - 1))) := by
    rw [mid_eq]
    have hs : sigN T (2 ^ (T.p - 1) * (e + 1) + (q - 2 ^ (T.p - 1))) = q := by
      unfold sigN; rw [hd, if_neg (by omega), hmod]; omega
    rw [hs, hd, h1, Nat.add_sub_cancel]
    have : (e : Int) - 1 + emin T = i := by omega
    rw [this, zpow_natCast]
    push_cast; ring
  refine ⟨_, ?_, hmid⟩
  rw [← (N_strictMono T).lt_iff_lt]
  have hu := emin_pos T
  have h5 : (N T (2 ^ (T.p - 1) * (e + 1) + (q - 2 ^ (T.p - 1))) : ℚ) * 2 ^ emin T ≤ M := by
    rw [hmid]; unfold Mid
    apply mul_le_mul_of_nonneg_right _ hu.le
    have : (N T (2 ^ (T.p - 1) * (e + 1) + (q - 2 ^ (T.p - 1))) : ℚ) ≤ N T (2 ^ (T.p - 1) * (e + 1) + (q - 2 ^ (T.p - 1)) + 1) := by
      exact_mod_cast N_le (T := T) (Nat.le_succ _)
    linarith
  have h6 := N_posInf T
  have h7 := threshold_lt (T := T)
  have h8 : (N T (2 ^ (T.p - 1) * (e + 1) + (q - 2 ^ (T.p - 1))) : ℚ) * 2 ^ emin T < N T (posInf T) * 2 ^ emin T := by
    rw [h6]; exact lt_of_le_of_lt h5 (lt_trans hM h7)
  exact_mod_cast lt_of_mul_lt_mul_right h8 hu.le

theorem pow2_of_justBelow {T : FloatType} {M : Nat} (h : JustBelowPow2 T M) (hM : M < 2 ^ 120) :
    ∃ j : Nat, ∃ a, a < posInf T ∧ a % 2 ^ (T.p - 1) = 0 ∧ |value T a| = 2 ^ j ∧ (M : ℚ) < 2 ^ j ∧ 0 < j ∧ Identifies T (M : ℚ) a := by
  obtain ⟨j, h1, h2⟩ := h
  have hlt : 2 ^ j < 2 * M := by
    have h3 : 2 ≤ 2 ^ (T.p + 1) := by cases T <;> decide
    have h4 : (2 ^ j - M) * 2 ≤ (2 ^ j - M) * 2 ^ (T.p + 1) := Nat.mul_le_mul_left _ h3
    omega
  have hj : j < 121 := (Nat.pow_lt_pow_iff_right (by norm_num)).mp (show 2 ^ j < 2 ^ 121 by omega)
  have hjm : (j : Int) < T.maxExp := by
    have : (121 : Int) ≤ T.maxExp := by cases T <;> decide
    omega
  have hmin : T.minExp ≤ j := by
    have : T.minExp ≤ 0 := by cases T <;> decide
    omega
  have hq : ((2 : ℚ) ^ j - M) * 2 ^ (T.p + 1) < 2 ^ j := by
    have : (((2 ^ j - M) * 2 ^ (T.p + 1) : Nat) : ℚ) < ((2 ^ j : Nat) : ℚ) := by exact_mod_cast h2
    rw [Nat.cast_mul, Nat.cast_sub h1.le] at this
    push_cast at this
    exact this
  have hx1 : (2 : ℚ) ^ (j : Int) < (M : ℚ) + 2 ^ ((j : Int) - T.p - 1) := by
    have e1 : (2 : ℚ) ^ ((j : Int) - T.p - 1) = 2 ^ j / 2 ^ (T.p + 1) := by
      rw [show (j : Int) - T.p - 1 = j - ((T.p + 1 : Nat) : Int) by push_cast; ring, zpow_sub₀ (by norm_num),
        zpow_natCast, zpow_natCast]
    rw [e1, zpow_natCast]
    have hp : (0 : ℚ) < 2 ^ (T.p + 1) := by positivity
    have := (lt_div_iff₀ hp).mpr hq
    linarith
  have hx2 : (M : ℚ) < 2 ^ (j : Int) := by rw [zpow_natCast]; exact_mod_cast h1
  obtain ⟨a, a1, a2, a3, a4, a5⟩ := identifies_pow2 hmin hjm hx1 hx2
  rw [zpow_natCast] at a4 hx2
  refine ⟨j, a, a1, a3, by rw [value_abs_of_lt a1, a4], hx2, ?_, a5⟩
  rcases Nat.eq_zero_or_pos j with c | c
  · subst c
    have : 0 < 2 ^ (T.p + 1) := by positivity
    have h3 : M = 0 := by omega
    rw [h3] at hlt; omega
  · exact c

/-- If `M` rounds up to a power of two it is just below it. -/
theorem justBelow_of_identifies {T : FloatType} {M a : Nat} {j : Int} (h : Identifies T (M : ℚ) a) (ha : a < posInf T)
    (hv : value T a = 2 ^ j) (hlt : (M : ℚ) < 2 ^ j) (hM : 0 < M) : JustBelowPow2 T M := by
  have hj0 : 0 < j := by
    by_contra hc
    have h1 : (2 : ℚ) ^ j ≤ 1 := zpow_le_one_of_nonpos₀ (by norm_num) (by omega)
    have h2 : (1 : ℚ) ≤ M := by exact_mod_cast hM
    linarith
  obtain ⟨j, rfl⟩ := Int.eq_ofNat_of_zero_le hj0.le
  have hjm : (j : Int) < T.maxExp := by
    have h1 : (value T a : ℚ) < 2 ^ T.maxExp := by
      rw [value_of_lt ha, ← N_posInf]
      apply mul_lt_mul_of_pos_right _ (emin_pos T)
      exact_mod_cast N_lt (T := T) ha
    rw [hv] at h1
    exact (zpow_lt_zpow_iff_right₀ (show (1 : ℚ) < 2 by norm_num)).mp h1
  have hmin : T.minExp ≤ j := by
    have : T.minExp ≤ 0 := by cases T <;> decide
    omega
  obtain ⟨a', a1, a2, a3, a4, a5⟩ := exists_pow2 (T := T) (j := j) (by omega) hjm
  have haa : a' = a := by
    apply N_inj (T := T)
    rw [value_of_lt ha, ← a4] at hv
    exact_mod_cast (mul_right_cancel₀ (emin_pos T).ne' hv).symm
  subst haa
  have h5 := a5 hmin
  have h6 := N_succ T (a' - 1)
  rw [Nat.sub_add_cancel (by omega)] at h6
  have h6' : (N T a' : ℚ) = N T (a' - 1) + ulpN T (a' - 1) := by exact_mod_cast h6
  have hl : a' - 1 < posInf T := by omega
  have hpv : value T (a' - 1) = 2 ^ (j : Int) - 2 ^ ((j : Int) - T.p) := by
    rw [value_of_lt hl, ← h5, ← a4, h6']; ring
  have hpp : (0 : ℚ) < 2 ^ ((j : Int) - T.p) := by positivity
  have := h.2.2 (a' - 1) (isFinite_of_lt hl) (by rw [hpv, hv]; linarith)
  rw [hpv, hv, abs_of_neg (by linarith)] at this
  have h7 : (2 : ℚ) ^ (j : Int) - M < 2 ^ ((j : Int) - T.p) / 2 := by
    rcases abs_cases ((M : ℚ) - (2 ^ (j : Int) - 2 ^ ((j : Int) - T.p))) with ⟨e, -⟩ | ⟨e, -⟩ <;> rw [e] at this <;> linarith
  have hM' : M < 2 ^ j := by rw [zpow_natCast] at hlt; exact_mod_cast hlt
  refine ⟨j, hM', ?_⟩
  have e1 : (2 : ℚ) ^ ((j : Int) - T.p) / 2 = 2 ^ j / 2 ^ (T.p + 1) := by
    rw [zpow_sub₀ (by norm_num), zpow_natCast, zpow_natCast, pow_succ]; field_simp
  rw [e1, zpow_natCast, lt_div_iff₀ (by positivity)] at h7
  have : (((2 ^ j - M) * 2 ^ (T.p + 1) : Nat) : ℚ) < ((2 ^ j : Nat) : ℚ) := by
    rw [Nat.cast_mul, Nat.cast_sub hM'.le]; push_cast; exact h7
  exact_mod_cast this

theorem exact_bound {T : FloatType} {m k : Nat} (hm0 : 0 < m) (hm : m < 10 ^ T.digits10) (hE : ExactProduct T m k) :
    m * 10 ^ k < 2 ^ 100 := by
  rcases hE with rfl | hE
  · have : 10 ^ T.digits10 < 2 ^ 100 := by cases T <;> decide
    omega
  · have h1 : 5 ^ k ≤ m * 5 ^ k := Nat.le_mul_of_pos_left _ hm0
    have h2 : 2 ^ (T.W - 1) ≤ 2 ^ 63 := by cases T <;> decide
    have h3 : k < 28 := (Nat.pow_lt_pow_iff_right (show 1 < 5 by norm_num)).mp
      (lt_of_le_of_lt (show 5 ^ k ≤ 2 ^ 63 by omega) (by decide))
    have h4 : 2 ^ k ≤ 2 ^ 28 := Nat.pow_le_pow_right (by norm_num) h3.le
    calc m * 10 ^ k = m * 5 ^ k * 2 ^ k := by rw [mul_assoc, ← mul_pow]; norm_num
      _ ≤ 2 ^ 63 * 2 ^ 28 := Nat.mul_le_mul (by omega) h4
      _ < 2 ^ 100 := by decide

theorem lt_threshold_of {T : FloatType} {M : Nat} (h : M < 2 ^ 120) : (M : ℚ) < overflowThreshold T := by
  have h1 : (M : ℚ) < 2 ^ (120 : Int) := by rw [zpow_ofNat]; exact_mod_cast h
  refine lt_trans h1 ?_
  unfold overflowThreshold
  have h2 : (2 : ℚ) ^ (T.maxExp - T.p - 1) ≤ 2 ^ (T.maxExp - 1) := zpow_le_zpow_right₀ (by norm_num) (by omega)
  have h3 : (2 : ℚ) ^ T.maxExp = 2 * 2 ^ (T.maxExp - 1) := by rw [zpow_sub_one₀ (by norm_num)]; ring
  have h4 : (2 : ℚ) ^ (120 : Int) < 2 ^ (T.maxExp - 1) :=
    zpow_lt_zpow_right₀ (by norm_num) (by cases T <;> decide)
  linarith

end Floaxie
