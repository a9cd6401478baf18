import Verif.Proof.Backward

/-! # `downsample` above the largest finite value -/

namespace Floaxie

open Spec FloatType

/-- Between `2^maxExp` and the range where overflow is detected, the raw biased
exponent is stored without any check. -/
theorem downsample_high {T : FloatType} {w : DiyFp} (hf1 : 2 ^ (T.W - 1) ≤ w.f) (hf2 : w.f < 2 ^ T.W)
    (he1 : T.maxExp - T.W < w.e) (he2 : w.e < T.maxExp) :
    ∃ (E q : Nat) (acc : Bool), (E : Int) = w.e + T.W + T.maxExp - 2 ∧ q < 2 ^ (T.p - 1) ∧
      w.downsample T = .ok ⟨E * 2 ^ (T.p - 1) + q, .success, acc⟩ := by
  have hWp : 0 < T.W - T.p := by cases T <;> simp [FloatType.W, FloatType.p]
  have hf0 : w.f ≠ 0 := by have : 0 < 2 ^ (T.W - 1) := by positivity
                           omega
  have hn : w.isNormalized T.W = .ok true := by
    unfold DiyFp.isNormalized
    rw [assertM_true (by simpa using hf0), ok_bind]
    unfold msbValue
    simp only [pure, Except.pure, Except.ok.injEq]
    have := highestBit_eq (show 0 < T.W by omega) hf2
    unfold highestBit nthBit at this
    rw [this]; simpa using hf1
  have hno : ¬ (w.e ≥ T.maxExp) := by omega
  have hnu : ¬ (w.e + T.W < T.minExp - T.mbs) := by
    cases T <;> simp only [FloatType.W, FloatType.maxExp, FloatType.minExp, FloatType.mbs, FloatType.p] at * <;> omega
  have hdn : positivePart (T.minExp - (T.mbs : Int) - w.e - 1) = 0 := by
    unfold positivePart
    cases T <;> simp only [FloatType.W, FloatType.maxExp, FloatType.minExp, FloatType.mbs, FloatType.p] at * <;> omega
  obtain ⟨E, hE⟩ : ∃ E : Nat, (E : Int) = w.e + T.W + T.maxExp - 2 := ⟨(w.e + T.W + T.maxExp - 2).toNat, by
    cases T <;> simp only [FloatType.W, FloatType.maxExp] at * <;> omega⟩
  have hE2 : w.e + ((T.W - T.p : Nat) : Int) + T.bias - 0 = (E : Int) := by
    rw [hE]
    cases T <;> simp only [FloatType.W, FloatType.maxExp, FloatType.bias, FloatType.mbs, FloatType.p] <;> omega
  have hElt : E < 2 ^ (T.W - T.p + 1) := by
    cases T <;> simp only [FloatType.W, FloatType.maxExp, FloatType.p] at * <;> omega
  have hpow : 2 ^ T.W = 2 ^ (T.W - T.p + 1) * 2 ^ T.mbs := by cases T <;> decide
  have hlt : E * 2 ^ T.mbs < 2 ^ T.W := by
    rw [hpow]; exact Nat.mul_lt_mul_of_pos_right hElt (by positivity)
  have hEW : E < 2 ^ T.W := lt_of_le_of_lt (Nat.le_mul_of_pos_right E (by positivity)) hlt
  obtain ⟨rd, hround⟩ : ∃ rd, roundUp T.W w.f (T.W - T.p) = .ok rd := ⟨_, roundUp_eq (by omega) (by omega) hf2⟩
  refine ⟨E, (((w.f >>> (T.W - T.p)) + (if rd.value then 1 else 0)) % 2 ^ T.W) % 2 ^ T.mbs, rd.isAccurate, hE,
    Nat.mod_lt _ (by positivity), ?_⟩
  · unfold DiyFp.downsample
    rw [assertM_true (by simpa using hf0), ok_bind, hn, ok_bind, assertM_true rfl, ok_bind]
    simp only [hno, hnu, if_false]
    rw [hdn, assertM_true (by simp; omega), ok_bind]
    rw [Nat.zero_max, hround, ok_bind, if_neg (by omega), hE2]
    have e1 : ((E : Int) % 2 ^ T.W).toNat = E := by
      rw [show ((2 : Int) ^ T.W) = ((2 ^ T.W : Nat) : Int) by push_cast; rfl, ← Int.natCast_mod, Int.toNat_natCast, Nat.mod_eq_of_lt hEW]
    rw [e1, Nat.shiftLeft_eq, Nat.mod_eq_of_lt hlt]
    have hm : mask T.W T.mbs = 2 ^ T.mbs - 1 := by
      unfold mask; rw [if_pos (by cases T <;> decide), Nat.shiftLeft_eq, one_mul]
    rw [hm, Nat.and_two_pow_sub_one_eq_mod, or_add (Nat.mod_lt _ (by positivity))]
    rfl

/-- Just below `2^maxExp`: the carry into the exponent is lost. -/
theorem downsample_top {T : FloatType} {w : DiyFp} (h1 : 2 ^ (T.W - 1) ≤ w.f) (h2 : w.f < 2 ^ T.W)
    (hx1 : overflowThreshold T ≤ (w.f : ℚ) * 2 ^ w.e) (hx2 : (w.f : ℚ) * 2 ^ w.e < 2 ^ T.maxExp) :
    ∃ v acc, w.downsample T = .ok ⟨v, .success, acc⟩ ∧
      (acc = true → v = posInf T - 2 ^ (T.p - 1)) := by
  obtain ⟨n1, n2⟩ := norm_size h1 h2
  have he2 : w.e ≤ T.maxExp - T.W := by
    have := exp_le_of n1 hx2; omega
  have he1 : emin T + 1 ≤ w.e + T.W := by
    have h0 : (2 : ℚ) ^ emin T ≤ overflowThreshold T := by
      unfold overflowThreshold
      have a1 : (2 : ℚ) ^ emin T ≤ 2 ^ (T.maxExp - 1) := zpow_le_zpow_right₀ (by norm_num) (by cases T <;> decide)
      have a2 : (2 : ℚ) ^ (T.maxExp - T.p - 1) ≤ 2 ^ (T.maxExp - 1) := zpow_le_zpow_right₀ (by norm_num) (by omega)
      have a3 : (2 : ℚ) ^ T.maxExp = 2 * 2 ^ (T.maxExp - 1) := by rw [zpow_sub_one₀ (by norm_num)]; ring
      linarith
    have := exp_le_of (le_trans h0 hx1) n2
    omega
  obtain ⟨v, acc, d1, d2, -⟩ := downsample_round (y := w.f) (j := 0) h1 h2 he1 he2 (by norm_num) (by simp) (by simp)
  refine ⟨v, acc, d1, fun ha => ?_⟩
  obtain ⟨a, a1, a2, a3, a4⟩ := d2 ha
  have ha : a = posInf T := by
    rcases a1.lt_or_eq with hlt | h
    · have := (a2 hlt).2.1
      rw [abs_of_nonneg (by positivity)] at this
      linarith
    · exact h
  subst ha
  rcases a4 with ⟨-, b2⟩ | ⟨-, -, -, -, b⟩
  · have := b2 (by unfold posInf; exact Nat.mul_mod_left _ _)
    rw [N_posInf] at this
    linarith
  · exact b

theorem top_value (T : FloatType) : posInf T - 2 ^ (T.p - 1) < posInf T ∧ value T (posInf T - 2 ^ (T.p - 1)) = 2 ^ (T.maxExp - 1) := by
  have hlt : posInf T - 2 ^ (T.p - 1) < posInf T := by cases T <;> decide
  refine ⟨hlt, ?_⟩
  rw [value_of_lt hlt]
  have h := N_posInf T
  have h2 : N T (posInf T) = 2 * N T (posInf T - 2 ^ (T.p - 1)) := by cases T <;> decide +kernel
  rw [h2] at h
  rw [zpow_sub_one₀ (by norm_num), ← h]
  push_cast; ring

/-- The stored pattern for a raw biased exponent that is too large. -/
theorem raw_pattern {T : FloatType} {E q : Nat} (hE1 : expMax T ≤ E) (hE2 : E < expMax T + T.W - 1) (hq : q < 2 ^ (T.p - 1)) :
    E * 2 ^ (T.p - 1) + q < 2 ^ T.W ∧
    (E = expMax T → ¬ IsFinite T (E * 2 ^ (T.p - 1) + q)) ∧
    (expMax T < E → IsFinite T (E * 2 ^ (T.p - 1) + q) ∧ signBit T (E * 2 ^ (T.p - 1) + q) = 1 ∧
      expField T (E * 2 ^ (T.p - 1) + q) < T.W) := by
  cases T
  all_goals
    simp only [IsFinite, expField, signBit, expMax, FloatType.W, FloatType.p] at *
    norm_num at *
    refine ⟨?_, ?_, ?_⟩
    · omega
    · intro h; subst h; omega
    · intro h; refine ⟨⟨?_, ?_⟩, ?_, ?_⟩ <;> omega

theorem small_mag {T : FloatType} {b : Nat} (h : expField T b < T.W) : |value T b| < 2 ^ (T.minExp + T.W) := by
  have h0 : |value T b| = mag T b := by
    have : 0 ≤ mag T b := by rw [mag_eq]; have := emin_pos T; positivity
    unfold value; split_ifs
    · rw [abs_neg, abs_of_nonneg this]
    · exact abs_of_nonneg this
  rw [h0]
  have hf : fracField T b < 2 ^ (T.p - 1) := Nat.mod_lt _ (by positivity)
  have hp : 2 ^ T.p = 2 ^ (T.p - 1) + 2 ^ (T.p - 1) := by cases T <;> decide
  have hlt : (2 : ℚ) ^ (T.p : ℕ) * 2 ^ (emin T + T.W) = 2 ^ (T.minExp + T.W) := by
    rw [← zpow_natCast, ← zpow_add₀ (by norm_num)]; congr 1; unfold emin; ring
  rw [← hlt]
  unfold mag
  split_ifs with hz
  · have a1 : (fracField T b : ℚ) < 2 ^ T.p := by exact_mod_cast (by omega : fracField T b < 2 ^ T.p)
    have a2 : (2 : ℚ) ^ emin T ≤ 2 ^ (emin T + T.W) := zpow_le_zpow_right₀ (by norm_num) (by omega)
    have a3 := emin_pos T
    calc (fracField T b : ℚ) * 2 ^ emin T < 2 ^ T.p * 2 ^ emin T := mul_lt_mul_of_pos_right a1 a3
      _ ≤ _ := mul_le_mul_of_nonneg_left a2 (by positivity)
  · have a1 : ((2 ^ (T.p - 1) + fracField T b : Nat) : ℚ) < 2 ^ T.p := by
      exact_mod_cast (by omega : 2 ^ (T.p - 1) + fracField T b < 2 ^ T.p)
    have a2 : (2 : ℚ) ^ (emin T + expField T b - 1) ≤ 2 ^ (emin T + T.W) := zpow_le_zpow_right₀ (by norm_num) (by omega)
    have a3 : (0 : ℚ) < 2 ^ (emin T + expField T b - 1) := by positivity
    calc ((2 ^ (T.p - 1) + fracField T b : Nat) : ℚ) * 2 ^ (emin T + expField T b - 1)
        < 2 ^ T.p * 2 ^ (emin T + expField T b - 1) := mul_lt_mul_of_pos_right a1 a3
      _ ≤ _ := mul_le_mul_of_nonneg_left a2 (by positivity)

end Floaxie
