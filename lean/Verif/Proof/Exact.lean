import Verif.Spec.Whole
import Verif.Proof.Amount

/-! # Products that fit are exact -/

namespace Floaxie

open Spec FloatType

/-- The scaled number is exact if it has fewer bits than the mantissa. -/
theorem scale_exact {T : FloatType} {w' : DiyFp} {P K : Nat} {y : ℚ} {j : Nat}
    (hP : P * 5 ^ K + 2 ≤ 2 ^ (T.W - 1)) (h2 : 2 ^ (T.W - 1) ≤ w'.f)
    (hj : j ≤ 1) (hd : 2 ^ j ∣ w'.f) (hy : (P : ℚ) * 10 ^ K = y * 2 ^ w'.e) (h7 : |y - w'.f| < 2 ^ j) :
    y = w'.f := by
  have hep : (0 : ℚ) < 2 ^ w'.e := by positivity
  have hj2 : (2 : ℚ) ^ j ≤ 2 := by interval_cases j <;> norm_num
  obtain ⟨l1, l2⟩ := abs_lt.mp h7
  have hf : (2 : ℚ) ^ (T.W - 1) ≤ w'.f := by exact_mod_cast h2
  have hP' : (P : ℚ) * 5 ^ K + 2 ≤ 2 ^ (T.W - 1) := by exact_mod_cast hP
  have e10 : (P : ℚ) * 10 ^ K = P * 5 ^ K * 2 ^ K := by
    rw [mul_assoc, ← mul_pow]; norm_num
  -- the exponent is smaller than K
  have hlt : w'.e < K := by
    by_contra hc
    push Not at hc
    have h1 : (2 : ℚ) ^ (K : ℤ) ≤ 2 ^ w'.e := zpow_le_zpow_right₀ (by norm_num) hc
    rw [zpow_natCast] at h1
    have h3 : (P : ℚ) * 5 ^ K < y := by linarith
    have h0 : (0 : ℚ) ≤ P * 5 ^ K := by positivity
    have h4 : (P : ℚ) * 5 ^ K * 2 ^ K < y * 2 ^ w'.e := by
      calc (P : ℚ) * 5 ^ K * 2 ^ K < y * 2 ^ K := mul_lt_mul_of_pos_right h3 (by positivity)
        _ ≤ y * 2 ^ w'.e := mul_le_mul_of_nonneg_left h1 (by linarith)
    rw [← hy, e10] at h4
    exact lt_irrefl _ h4
  obtain ⟨i, hi⟩ : ∃ i : Nat, (K : ℤ) = w'.e + (i + 1 : Nat) := ⟨(K - w'.e - 1).toNat, by push_cast; omega⟩
  have hyi : y = ((P * 5 ^ K * 2 ^ (i + 1) : Nat) : ℚ) := by
    apply mul_right_cancel₀ hep.ne'
    rw [← hy, e10]
    have : (2 : ℚ) ^ K = 2 ^ w'.e * 2 ^ (i + 1) := by
      rw [← zpow_natCast, hi, zpow_add₀ (by norm_num), zpow_natCast]
    rw [this]; push_cast; ring
  obtain ⟨f, hf'⟩ := hd
  rw [hyi, hf'] at h7 ⊢
  have hint : |((P * 5 ^ K * 2 ^ (i + 1) : Nat) : ℤ) - ((2 ^ j * f : Nat) : ℤ)| < 2 ^ j := by exact_mod_cast h7
  have hev : ((P * 5 ^ K * 2 ^ (i + 1) : Nat) : ℤ) = 2 * ((P * 5 ^ K * 2 ^ i : Nat) : ℤ) := by
    push_cast; ring
  have : ((P * 5 ^ K * 2 ^ (i + 1) : Nat) : ℤ) = ((2 ^ j * f : Nat) : ℤ) := by
    obtain ⟨g1, g2⟩ := abs_lt.mp hint
    generalize ((P * 5 ^ K * 2 ^ (i + 1) : Nat) : ℤ) = A at *
    generalize ((P * 5 ^ K * 2 ^ i : Nat) : ℤ) = B at *
    interval_cases j
    · omega
    · push_cast at *; omega
  exact_mod_cast this

/-- Numbers `m * 10^k` whose product of mantissa and power of ten is exact. -/
def ExactProduct (T : FloatType) (m k : Nat) : Prop :=
  k = 0 ∨ m * 5 ^ k + 2 ≤ 2 ^ (T.W - 1)

/-- `krosh` on whole numbers that fit into the mantissa. -/
theorem krosh_exact {T : FloatType} {mem : List Nat} {str : Nat} {n : Numeral} (h : NumeralAt mem str n)
    {m k : Nat} (hm0 : 0 < m) (hm : m < 10 ^ T.digits10) (hE : ExactProduct T m k) (hmk : n.absValue = m * 10 ^ k)
    (hx2 : n.absValue < overflowThreshold T) :
    ∃ v acc, krosh T mem str = .ok { value := v, strEnd := str + n.text.length, status := .success, isAccurate := acc } ∧
      (acc = true → ∃ b, value T b ≠ 0 ∧ Identifies T n.value b ∧
        ((v = b ∧ (absPat T b % 2 ^ (T.p - 1) = 0 → |value T b| ≤ n.absValue)) ∨ CarryLost T n.value b v)) ∧
      (acc = false ↔ ∃ a, a < posInf T ∧ n.absValue = Mid T a) := by
  have hu := emin_pos T
  have hm1 : (1 : ℚ) ≤ m := by exact_mod_cast hm0
  have hx0' : 1 ≤ n.absValue := by
    rw [hmk]
    have : (1 : ℚ) ≤ 10 ^ k := one_le_pow₀ (by norm_num)
    nlinarith
  have hx1 : 2 ^ emin T ≤ n.absValue :=
    le_trans (zpow_le_one_of_nonpos₀ (by norm_num) (by cases T <;> decide)) hx0'
  have hx0 : 0 < n.absValue := by linarith
  have hmk' : n.absValue = m * 10 ^ (k : ℤ) := by rw [hmk, zpow_natCast]
  obtain ⟨w, Y, K, w1, w2, w3, w4, w5, w6, w7, w8, w9, w10, w12, w11⟩ := krosh_num (T := T) h hx0.ne'
  have hY := w9 ⟨m, k, hm, hmk'⟩
  have hkK := w10 m k hm hmk'
  obtain ⟨P, hP, -⟩ := w12 ⟨m, k, hm, hmk'⟩
  obtain ⟨K, rfl⟩ := Int.eq_ofNat_of_zero_le (show 0 ≤ K by omega)
  have hPK : m * 10 ^ k = P * 10 ^ K := by
    rw [hmk, hP, zpow_natCast] at w5; exact_mod_cast w5
  have hkK' : k ≤ K := by exact_mod_cast hkK
  have hPE : K = 0 ∨ P * 5 ^ K + 2 ≤ 2 ^ (T.W - 1) := by
    rcases Nat.eq_zero_or_pos K with c | c
    · exact Or.inl c
    · right
      have h5 : m * 5 ^ k = P * 5 ^ K * 2 ^ (K - k) := by
        have h2 : 0 < 2 ^ k := by positivity
        apply Nat.eq_of_mul_eq_mul_right h2
        calc m * 5 ^ k * 2 ^ k = m * 10 ^ k := by rw [mul_assoc, ← mul_pow]; norm_num
          _ = P * 10 ^ K := hPK
          _ = P * 5 ^ K * 2 ^ K := by rw [mul_assoc, ← mul_pow]; norm_num
          _ = P * 5 ^ K * 2 ^ (K - k) * 2 ^ k := by rw [mul_assoc _ _ (2 ^ k), ← pow_add, Nat.sub_add_cancel hkK']
      rcases hE with hE | hE
      · subst hE
        rw [pow_zero, mul_one, Nat.sub_zero] at h5
        obtain ⟨i, rfl⟩ : ∃ i, K = i + 1 := ⟨K - 1, by omega⟩
        rw [pow_succ 2 i, ← mul_assoc] at h5
        have h1 : 1 ≤ 2 ^ i := Nat.one_le_two_pow
        have h3 : P * 5 ^ (i + 1) ≤ P * 5 ^ (i + 1) * 2 ^ i := Nat.le_mul_of_pos_right _ h1
        have h4 : 2 * (P * 5 ^ (i + 1)) < 10 ^ T.digits10 := by omega
        have h6 : 10 ^ T.digits10 + 4 ≤ 2 * 2 ^ (T.W - 1) := by cases T <;> decide
        omega
      · have h1 : 1 ≤ 2 ^ (K - k) := Nat.one_le_two_pow
        have h3 : P * 5 ^ K ≤ P * 5 ^ K * 2 ^ (K - k) := Nat.le_mul_of_pos_right _ h1
        omega
  have hKr := K_range w6 w7 (w5 ▸ hx1) (w5 ▸ hx2) (fun _ => by omega)
  obtain ⟨w', y, j, h1, h2, h3, h4, h5, h6, h7, h8⟩ := scale_ok (ε := 0) w1 w2 (Or.inr hKr) le_rfl
    (show |Y - w.f * 2 ^ w.e| ≤ 0 * 2 ^ w.e by rw [hY]; simp)
  rw [add_zero, one_mul] at h7
  have hex : y = w'.f := by
    rcases hPE with c | c
    · subst c
      rw [h8 rfl] at h6 ⊢
      have hep : (0 : ℚ) < 2 ^ w.e := by positivity
      apply mul_right_cancel₀ hep.ne'
      rw [← h6, hY]; simp
    · rcases Nat.eq_zero_or_pos K with c' | c'
      · subst c'
        rw [h8 rfl] at h6 ⊢
        have hep : (0 : ℚ) < 2 ^ w.e := by positivity
        apply mul_right_cancel₀ hep.ne'
        rw [← h6, hY]; simp
      · rw [hP, zpow_natCast] at h6
        exact scale_exact c h2 h4 h5 h6 h7
  have hval : n.absValue = w'.f * 2 ^ w'.e := by rw [w5, h6, hex]
  rw [w5, h6] at hx1 hx2
  obtain ⟨r1, r2⟩ := range_exact h2 h3 h4 h5 h7 hx1 hx2
  obtain ⟨v, acc, d1, d2, d3⟩ := downsample_round h2 h3 r1 r2 h4 h5 h7
  rw [hex, ← hval] at d2
  refine ⟨if n.isNeg then neg T v else v, acc, ?_, ?_, ?_⟩
  · rw [w11]
    unfold kroshTail
    rw [if_neg (fun c => c.2 hKr), h1, ok_bind, d1, ok_bind, negBits_eq]
    cases n.isNeg <;> rfl
  · intro ha
    obtain ⟨a, a1, a2, a3, a4⟩ := d2 ha
    have hap : a < posInf T := lt_of_le_of_ne a1 (fun c => absurd (a3 c) (by rw [hval, ← hex]; linarith))
    have hid := a2 hap
    have ha0 : a ≠ 0 := by
      intro h0
      have hz : value T a = 0 := value_zero_iff.mpr (by simp [h0, absPat])
      have h1p : 1 < posInf T := by cases T <;> decide
      have hv1 : value T 1 = 2 ^ emin T := by
        rw [value_of_lt h1p]
        have : N T 1 = 1 := by cases T <;> decide
        rw [this]; simp
      have := hid.2.2 1 (isFinite_of_lt h1p) (by rw [hz, hv1]; exact hu.ne')
      rw [hex, ← hval] at hx1
      rw [hz, hv1, sub_zero, abs_of_pos hx0, abs_of_nonneg (by linarith)] at this
      linarith
    have hva : value T a ≠ 0 := by
      rw [Ne, value_zero_iff, absPat_of_lt hap]; exact ha0
    have hc : (v = a ∧ (a % 2 ^ (T.p - 1) = 0 → |value T a| ≤ n.absValue)) ∨ CarryLost T n.absValue a v := by
      rcases a4 with ⟨b1, b2⟩ | ⟨b1, b2, b3, b4, b5⟩
      · refine Or.inl ⟨b1, fun hz => ?_⟩
        rw [value_abs_of_lt hap]
        exact b2 hz
      · right; rw [b5]; exact carry_of hap b1 b2 hx0.le b4
    unfold Numeral.value
    cases n.isNeg
    · exact ⟨a, hva, hid, by rw [absPat_of_lt hap]; exact hc⟩
    · refine ⟨neg T a, ?_, identifies_neg hid, ?_⟩
      · rw [value_neg (lt_posInf_lt hap)]; exact neg_ne_zero.mpr hva
      · rcases hc with ⟨rfl, hc⟩ | hc
        · refine Or.inl ⟨rfl, ?_⟩
          rw [(signBit_neg (lt_posInf_lt hap)).2.1, absPat_of_lt hap, value_neg (lt_posInf_lt hap), abs_neg]
          exact hc
        · exact Or.inr (carry_neg (isFinite_of_lt hap) hc)
  · constructor
    · intro ha
      obtain ⟨a, a1, a2⟩ := d3 ha
      refine ⟨a, a1, ?_⟩
      rw [hval]; unfold Mid; linarith
    · rintro ⟨b, b1, b2⟩
      by_contra hacc
      obtain ⟨a, a1, a2, a3, a4⟩ := d2 (by simpa using hacc)
      rw [hex, ← hval] at hx2
      have hap : a < posInf T := lt_of_le_of_ne a1 (fun c => absurd (a3 c) (by linarith))
      exact not_identifies_mid b1 b2 hx2 (a2 hap)

end Floaxie
