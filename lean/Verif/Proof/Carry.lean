import Verif.Proof.Whole

/-! # When the carry is certainly lost -/

namespace Floaxie

open Spec FloatType

theorem scaled_close {T : FloatType} {f j : Nat} {y : ℚ} (h2 : 2 ^ (T.W - 1) ≤ f) (h4 : j ≤ 1)
    (h7 : |y - f| < 2 ^ j) : |y - f| < y * (5 / 2 ^ T.W) := by
  have hj2 : (2 : ℚ) ^ j ≤ 2 := by interval_cases j <;> norm_num
  have h10 : (2 : ℚ) ^ (T.W - 1) ≤ f := by exact_mod_cast h2
  have h11 : (2 : ℚ) ^ T.W = 2 * 2 ^ (T.W - 1) := by rw [← pow_succ', Nat.sub_add_cancel (W_pos T)]
  have h12 : (2 : ℚ) ^ 10 ≤ 2 ^ (T.W - 1) := pow_le_pow_right₀ (by norm_num) (by cases T <;> decide)
  have h13 := (abs_lt.mp h7).1
  rw [h11, ← mul_div_assoc, lt_div_iff₀ (by positivity)]
  have h14 : |y - f| * (2 * 2 ^ (T.W - 1)) ≤ 2 * (2 * 2 ^ (T.W - 1)) :=
    mul_le_mul_of_nonneg_right (by linarith) (by positivity)
  norm_num at h12
  linarith

/-- `krosh` on short numerals, with what is known about powers of two. -/
theorem krosh_carry {T : FloatType} {mem : List Nat} {str : Nat} {n : Numeral} (h : NumeralAt mem str n)
    {m : Nat} {k : Int} (hm : m < 10 ^ T.digits10) (hmk : n.absValue = m * 10 ^ k)
    (hk : T = .float → -50 ≤ k) (hx1 : 2 ^ emin T ≤ n.absValue) (hx2 : n.absValue < overflowThreshold T) :
    ∃ v acc, krosh T mem str = .ok { value := v, strEnd := str + n.text.length, status := .success, isAccurate := acc } ∧
      (acc = true → ∃ b, value T b ≠ 0 ∧ Identifies T n.value b ∧
        ((v = b ∧ (absPat T b % 2 ^ (T.p - 1) = 0 → |value T b| < n.absValue * (1 + 5 / 2 ^ T.W))) ∨
          CarryLost T n.value b v)) ∧
      (acc = false → ∃ a, a < posInf T ∧ |n.absValue - Mid T a| < n.absValue * (5 / 2 ^ T.W)) := by
  have hu := emin_pos T
  have hx0 : 0 < n.absValue := by linarith
  obtain ⟨w, Y, K, w1, w2, w3, w4, w5, w6, w7, w8, w9, w10, w12, w11⟩ := krosh_num (T := T) h hx0.ne'
  have hY := w9 ⟨m, k, hm, hmk⟩
  have hkK := w10 m k hm hmk
  have hKr := K_range w6 w7 (w5 ▸ hx1) (w5 ▸ hx2) (fun hT => le_trans (hk hT) hkK)
  obtain ⟨w', y, j, h1, h2, h3, h4, h5, h6, h7, h8⟩ := scale_ok (ε := 0) w1 w2 (Or.inr hKr) le_rfl
    (show |Y - w.f * 2 ^ w.e| ≤ 0 * 2 ^ w.e by rw [hY]; simp)
  rw [add_zero, one_mul] at h7
  have hxy : n.absValue = y * 2 ^ w'.e := by rw [w5, h6]
  have hclose : |n.absValue - w'.f * 2 ^ w'.e| < n.absValue * (5 / 2 ^ T.W) := by
    have hep : (0 : ℚ) < 2 ^ w'.e := by positivity
    rw [hxy, ← sub_mul, abs_mul, abs_of_pos hep]
    calc |y - w'.f| * 2 ^ w'.e < y * (5 / 2 ^ T.W) * 2 ^ w'.e :=
          mul_lt_mul_of_pos_right (scaled_close h2 h4 h7) hep
      _ = _ := by ring
  obtain ⟨r1, r2⟩ := range_exact h2 h3 h4 h5 h7 (hxy ▸ hx1) (hxy ▸ hx2)
  obtain ⟨v, acc, d1, d2, d3⟩ := downsample_round h2 h3 r1 r2 h4 h5 h7
  rw [← hxy] at d2
  refine ⟨if n.isNeg then neg T v else v, acc, ?_, ?_, ?_⟩
  · rw [w11]
    unfold kroshTail
    rw [if_neg (fun c => c.2 hKr), h1, ok_bind, d1, ok_bind, negBits_eq]
    cases n.isNeg <;> rfl
  · intro ha
    obtain ⟨a, a1, a2, a3, a4⟩ := d2 ha
    have hap : a < posInf T := lt_of_le_of_ne a1 (fun c => absurd (a3 c) (by linarith))
    have hid := a2 hap
    have ha0 : a ≠ 0 := by
      intro h0
      have hz : value T a = 0 := value_zero_iff.mpr (by simp [h0, absPat])
      have h1p : 1 < posInf T := by cases T <;> decide
      have hv1 : value T 1 = 2 ^ emin T := by
        rw [value_of_lt h1p]
        have : N T 1 = 1 := by cases T <;> decide
        rw [this]; simp
      have := hid.2.2 1 (isFinite_of_lt h1p) (by rw [hz, hv1]; exact hu.ne')
      rw [hz, hv1, sub_zero, abs_of_pos hx0, abs_of_nonneg (by linarith)] at this
      linarith
    have hva : value T a ≠ 0 := by
      rw [Ne, value_zero_iff, absPat_of_lt hap]; exact ha0
    have hc : (v = a ∧ (a % 2 ^ (T.p - 1) = 0 → |value T a| < n.absValue * (1 + 5 / 2 ^ T.W))) ∨
        CarryLost T n.absValue a v := by
      rcases a4 with ⟨b1, b2⟩ | ⟨b1, b2, b3, b4, b5⟩
      · refine Or.inl ⟨b1, fun hz => ?_⟩
        rw [value_abs_of_lt hap]
        have := b2 hz
        have h9 := (abs_lt.mp hclose).1
        rw [mul_add, mul_one]
        linarith
      · right; rw [b5]; exact carry_of hap b1 b2 hx0.le b4
    unfold Numeral.value
    cases n.isNeg
    · exact ⟨a, hva, hid, by rw [absPat_of_lt hap]; exact hc⟩
    · refine ⟨neg T a, ?_, identifies_neg hid, ?_⟩
      · rw [value_neg (lt_posInf_lt hap)]; exact neg_ne_zero.mpr hva
      · rcases hc with ⟨rfl, hc⟩ | hc
        · refine Or.inl ⟨rfl, ?_⟩
          rw [(signBit_neg (lt_posInf_lt hap)).2.1, absPat_of_lt hap, value_neg (lt_posInf_lt hap), abs_neg]
          exact hc
        · exact Or.inr (carry_neg (isFinite_of_lt hap) hc)
  · intro ha
    obtain ⟨a, a1, a2⟩ := d3 ha
    refine ⟨a, a1, ?_⟩
    have : Mid T a = w'.f * 2 ^ w'.e := by unfold Mid; linarith
    rw [this]; exact hclose

end Floaxie
