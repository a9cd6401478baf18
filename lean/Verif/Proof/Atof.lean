import Verif.Model.Atof
import Verif.Proof.Krosh

/-! # `krosh` and `atof` on numerals: value, status, end pointer -/

namespace Floaxie

open Spec FloatType

/-- Exponent range of a scaled number close to a number in the finite range. -/
theorem range_exact {T : FloatType} {w : DiyFp} {y : ℚ} {j : Nat}
    (hf1 : 2 ^ (T.W - 1) ≤ w.f) (hf2 : w.f < 2 ^ T.W)
    (hj : j ≤ 1) (hd : 2 ^ j ∣ w.f) (hy : |y - w.f| < 2 ^ j)
    (hx1 : 2 ^ emin T ≤ y * 2 ^ w.e) (hx2 : y * 2 ^ w.e < overflowThreshold T) :
    emin T + 1 ≤ w.e + T.W ∧ w.e ≤ T.maxExp - T.W := by
  have hep : (0 : ℚ) < 2 ^ w.e := by positivity
  constructor
  · have h1 := near_lt hj hd hy (m := 2 ^ T.W) (dvd_pow_self 2 (W_pos T).ne') hf2
    have h2 : y * 2 ^ w.e < 2 ^ ((T.W : Int) + w.e) := by
      rw [zpow_add₀ (by norm_num), zpow_natCast]
      push_cast at h1
      exact mul_lt_mul_of_pos_right h1 hep
    have h3 := lt_of_le_of_lt hx1 h2
    have := (zpow_lt_zpow_iff_right₀ (show (1 : ℚ) < 2 by norm_num)).mp h3
    omega
  · by_contra hc
    have h1 := near_gt hj hd hy (m := 2 ^ (T.W - 1) - 2 ^ (T.W - T.p - 2)) (by cases T <;> decide)
      (lt_of_lt_of_le (by cases T <;> decide) hf1)
    obtain ⟨d, hd⟩ : ∃ d : Nat, w.e = T.maxExp - T.W + 1 + d := ⟨(w.e - (T.maxExp - T.W + 1)).toNat, by omega⟩
    have h2 : (2 : ℚ) ^ (T.maxExp - T.W + 1) ≤ 2 ^ w.e := zpow_le_zpow_right₀ (by norm_num) (by omega)
    have h3 : overflowThreshold T = ((2 ^ (T.W - 1) - 2 ^ (T.W - T.p - 2) : Nat) : ℚ) * 2 ^ (T.maxExp - T.W + 1) := by
      unfold overflowThreshold
      rw [Nat.cast_sub (by cases T <;> decide), sub_mul]
      push_cast
      rw [← zpow_natCast, ← zpow_natCast, ← zpow_add₀ (by norm_num), ← zpow_add₀ (by norm_num)]
      congr 2 <;> (cases T <;> decide)
    have h4 : (0 : ℚ) ≤ ((2 ^ (T.W - 1) - 2 ^ (T.W - T.p - 2) : Nat) : ℚ) := Nat.cast_nonneg _
    have h5 := mul_le_mul_of_nonneg_left h2 h4
    have h6 := mul_lt_mul_of_pos_right h1 hep
    rw [h3] at hx2
    linarith

theorem negBits_eq (T : FloatType) (b : Nat) : negBits T b = neg T b := by
  unfold negBits neg msbValue
  simp [Nat.shiftLeft_eq]

/-- `x` is exactly half way between two consecutive non-negative finite values
(the second of which may be the continuation `2^maxExp`). -/
def Mid (T : FloatType) (a : Nat) : ℚ := ((N T a : ℚ) + N T (a + 1)) / 2 * 2 ^ emin T

theorem not_identifies_mid {T : FloatType} {x : ℚ} {a b : Nat} (hb : b < posInf T) (hx : x = Mid T b)
    (hlt : x < overflowThreshold T) (h : Identifies T x a) : False := by
  have hu := emin_pos T
  have hb1 : b + 1 < posInf T := by
    by_contra hc
    have hbe : b = posInf T - 1 := by omega
    have := overflowThreshold_eq T
    rw [hx, hbe] at hlt
    unfold Mid at hlt
    rw [Nat.sub_add_cancel (posInf_pos T)] at hlt
    linarith
  have v1 := value_of_lt hb
  have v2 := value_of_lt hb1
  have hlt2 : value T b < value T (b + 1) := by
    rw [v1, v2]
    apply mul_lt_mul_of_pos_right _ hu
    exact_mod_cast N_lt (T := T) (Nat.lt_succ_self b)
  have hxm : x = (value T b + value T (b + 1)) / 2 := by
    rw [hx, v1, v2]; unfold Mid; ring
  have e1 : |x - value T b| = (value T (b + 1) - value T b) / 2 := by
    rw [hxm, abs_of_nonneg (by linarith)]; ring
  have e2 : |x - value T (b + 1)| = (value T (b + 1) - value T b) / 2 := by
    rw [hxm, abs_of_nonpos (by linarith)]; ring
  by_cases h1 : value T b = value T a
  · have := h.2.2 (b + 1) (isFinite_of_lt hb1) (by rw [← h1]; exact hlt2.ne')
    rw [← h1, e1, e2] at this
    exact lt_irrefl _ this
  · have h3 := h.2.2 b (isFinite_of_lt hb) h1
    by_cases h2 : value T (b + 1) = value T a
    · rw [← h2, e1, e2] at h3
      exact lt_irrefl _ h3
    · rw [e1] at h3
      rw [abs_lt, hxm] at h3
      have g1 : value T b < value T a := by linarith [h3.2]
      have g2 : value T a < value T (b + 1) := by linarith [h3.1]
      have h0b : 0 ≤ value T b := by rw [v1]; positivity
      rcases value_cases T a with hc | hc
      · rw [hc, v1] at g1
        rw [hc, v2] at g2
        have g1' : N T b < N T (absPat T a) := by exact_mod_cast lt_of_mul_lt_mul_right g1 hu.le
        have g2' : N T (absPat T a) < N T (b + 1) := by exact_mod_cast lt_of_mul_lt_mul_right g2 hu.le
        have k1 := (N_strictMono T).lt_iff_lt.mp g1'
        have k2 := (N_strictMono T).lt_iff_lt.mp g2'
        omega
      · have : value T a ≤ 0 := by rw [hc]; simp; positivity
        linarith

/-- The last part of `krosh` on an exact mantissa. -/
theorem tail_exact {T : FloatType} {w : DiyFp} {K : Int} {pos : Bool} {strEnd : Nat} {Y : ℚ}
    (hf1 : 2 ^ (T.W - 1) ≤ w.f) (hf2 : w.f < 2 ^ T.W) (hY : Y = w.f * 2 ^ w.e)
    (hK : K = 0 ∨ (T.powLo ≤ K ∧ K ≤ T.powHi))
    (hx1 : 2 ^ emin T ≤ Y * 10 ^ K) (hx2 : Y * 10 ^ K < overflowThreshold T) :
    ∃ v acc, kroshTail T w K pos strEnd = .ok { value := if pos then v else neg T v, strEnd := strEnd, status := .success, isAccurate := acc } ∧
      (acc = true → ∃ a, a < posInf T ∧ a ≠ 0 ∧ Identifies T (Y * 10 ^ K) a ∧
        ((v = a ∧ (K = 0 → a % 2 ^ (T.p - 1) = 0 → N T a * 2 ^ emin T ≤ Y * 10 ^ K)) ∨
          (a % 2 ^ (T.p - 1) = 0 ∧ Y * 10 ^ K < N T a * 2 ^ emin T ∧ v = a - 2 ^ (T.p - 1)))) ∧
      (acc = false → ∃ a, a < posInf T ∧ |Y * 10 ^ K - Mid T a| < Y * 10 ^ K * (5 / 2 ^ T.W) ∧
        (K = 0 → Y * 10 ^ K = Mid T a)) ∧
      ((∃ a, a < posInf T ∧ Y * 10 ^ K = Mid T a) → acc = false) := by
  obtain ⟨w', y, j, h1, h2, h3, h4, h5, h6, h7, h8⟩ := scale_ok (ε := 0) hf1 hf2 hK le_rfl
    (show |Y - w.f * 2 ^ w.e| ≤ 0 * 2 ^ w.e by rw [hY]; simp)
  rw [add_zero, one_mul] at h7
  rw [h6] at hx1 hx2
  obtain ⟨r1, r2⟩ := range_exact h2 h3 h4 h5 h7 hx1 hx2
  obtain ⟨v, acc, d1, d2, d3⟩ := downsample_round h2 h3 r1 r2 h4 h5 h7
  have hep : (0 : ℚ) < 2 ^ w'.e := by positivity
  refine ⟨v, acc, ?_, ?_, ?_, ?_⟩
  · unfold kroshTail
    rw [if_neg (by tauto), h1, ok_bind, d1, ok_bind, negBits_eq]
    cases pos <;> rfl
  · intro ha
    obtain ⟨a, a1, a2, a3, a4⟩ := d2 ha
    have hap : a < posInf T := lt_of_le_of_ne a1 (fun h => absurd (a3 h) (by linarith))
    have ha0 : a ≠ 0 := by
      intro h0
      obtain ⟨-, -, i3⟩ := a2 hap
      have hz : value T a = 0 := value_zero_iff.mpr (by simp [h0, absPat])
      have h1p : 1 < posInf T := by cases T <;> decide
      have hv1 : value T 1 = 2 ^ emin T := by
        rw [value_of_lt h1p]
        have : N T 1 = 1 := by cases T <;> decide
        rw [this]; simp
      have hu := emin_pos T
      have := i3 1 (isFinite_of_lt h1p) (by rw [hz, hv1]; exact hu.ne')
      rw [hz, hv1, sub_zero] at this
      rw [abs_of_pos (by linarith), abs_of_nonneg (by linarith)] at this
      linarith
    refine ⟨a, hap, ha0, by rw [h6]; exact a2 hap, ?_⟩
    rcases a4 with ⟨b1, b2⟩ | ⟨b1, b2, -, b4, b5⟩
    · refine Or.inl ⟨b1, fun hK0 hz => ?_⟩
      have := b2 hz
      rw [h8 hK0] at this
      rw [hK0, hY, zpow_zero, mul_one]; exact this
    · exact Or.inr ⟨b2, by rw [h6]; exact b4, b5⟩
  · intro ha
    obtain ⟨a, a1, a2⟩ := d3 ha
    have hmid : Mid T a = w'.f * 2 ^ w'.e := by unfold Mid; linarith
    refine ⟨a, a1, ?_, ?_⟩
    · rw [h6, hmid, ← sub_mul, abs_mul, abs_of_pos hep]
      have h9 : |y - w'.f| < y * (5 / 2 ^ T.W) := by
        have hj2 : (2 : ℚ) ^ j ≤ 2 := by interval_cases j <;> norm_num
        have h10 : (2 : ℚ) ^ (T.W - 1) ≤ w'.f := by exact_mod_cast h2
        have h11 : (2 : ℚ) ^ T.W = 2 * 2 ^ (T.W - 1) := by rw [← pow_succ', Nat.sub_add_cancel (W_pos T)]
        have h12 : (2 : ℚ) ^ 10 ≤ 2 ^ (T.W - 1) := pow_le_pow_right₀ (by norm_num) (by cases T <;> decide)
        have h13 := (abs_lt.mp h7).1
        rw [h11, ← mul_div_assoc, lt_div_iff₀ (by positivity)]
        have h14 : |y - w'.f| * (2 * 2 ^ (T.W - 1)) ≤ 2 * (2 * 2 ^ (T.W - 1)) :=
          mul_le_mul_of_nonneg_right (by linarith) (by positivity)
        norm_num at h12
        linarith
      calc |y - w'.f| * 2 ^ w'.e < y * (5 / 2 ^ T.W) * 2 ^ w'.e := mul_lt_mul_of_pos_right h9 hep
        _ = _ := by ring
    · intro hK0
      rw [hmid, h8 hK0, hK0, hY]; simp
  · rintro ⟨b, b1, b2⟩
    by_contra hacc
    obtain ⟨a, a1, a2, a3, a4⟩ := d2 (by simpa using hacc)
    have hap : a < posInf T := lt_of_le_of_ne a1 (fun h => absurd (a3 h) (by linarith))
    rw [← h6] at hx2 a2
    exact not_identifies_mid b1 b2 hx2 (a2 hap)

/-! ## Powers of two among the patterns -/

/-- The value of a pattern with zero fraction field. -/
theorem N_pow2 {T : FloatType} {a : Nat} (h0 : a ≠ 0) (ha : a % 2 ^ (T.p - 1) = 0) :
    ∃ E : Nat, a = (E + 1) * 2 ^ (T.p - 1) ∧ (N T a : ℚ) * 2 ^ emin T = 2 ^ (T.minExp - 1 + E) := by
  have hP : 0 < 2 ^ (T.p - 1) := by positivity
  have hdm := Nat.div_add_mod a (2 ^ (T.p - 1))
  rw [ha, add_zero] at hdm
  have hE0 : a / 2 ^ (T.p - 1) ≠ 0 := by
    intro h; rw [h, mul_zero] at hdm; exact h0 hdm.symm
  obtain ⟨E, hE⟩ := Nat.exists_eq_succ_of_ne_zero hE0
  refine ⟨E, ?_, ?_⟩
  · rw [← hdm, hE, Nat.succ_eq_add_one]; ring
  · unfold N
    rw [ha, if_neg hE0, hE, add_zero, ← pow_add]
    push_cast
    rw [← zpow_natCast, ← zpow_add₀ (by norm_num)]
    congr 1
    have : 1 ≤ T.p := by cases T <;> decide
    unfold emin
    push_cast [Nat.cast_sub this, Nat.succ_eq_add_one]
    ring

theorem value_abs_of_lt {T : FloatType} {b : Nat} (h : b < posInf T) :
    |value T b| = (N T b : ℚ) * 2 ^ emin T := by
  rw [value_of_lt h, abs_of_nonneg (by have := emin_pos T; positivity)]

theorem lt_posInf_lt {T : FloatType} {b : Nat} (h : b < posInf T) : b < 2 ^ T.W := (isFinite_of_lt h).1

theorem carry_of {T : FloatType} {a : Nat} {x : ℚ} (h : a < posInf T) (h0 : a ≠ 0)
    (ha : a % 2 ^ (T.p - 1) = 0) (hx0 : 0 ≤ x) (hx : x < N T a * 2 ^ emin T) :
    CarryLost T x a (a - 2 ^ (T.p - 1)) := by
  have hlt : a - 2 ^ (T.p - 1) < posInf T := by omega
  refine ⟨isFinite_of_lt hlt, by rw [signBit_of_lt hlt, signBit_of_lt h], ?_⟩
  obtain ⟨E, hE, hN⟩ := N_pow2 h0 ha
  refine ⟨T.minExp - 1 + E, by omega, by rw [value_abs_of_lt h, hN], by rw [abs_of_nonneg hx0, ← hN]; exact hx, ?_⟩
  rw [value_abs_of_lt hlt]
  by_cases hE0 : E = 0
  · rw [hE, hE0]
    simp [N_zero]
  · rw [if_neg (by omega)]
    obtain ⟨E', rfl⟩ := Nat.exists_eq_succ_of_ne_zero hE0
    have h1 : a - 2 ^ (T.p - 1) = (E' + 1) * 2 ^ (T.p - 1) := by
      rw [hE, Nat.succ_eq_add_one, add_mul (E' + 1) 1, one_mul, Nat.add_sub_cancel]
    have h2 : a - 2 ^ (T.p - 1) ≠ 0 := by
      rw [h1]; positivity
    obtain ⟨E2, hE2, hN2⟩ := N_pow2 (T := T) h2 (by rw [h1]; exact Nat.mul_mod_left _ _)
    rw [hN2]
    have : E2 = E' := by
      rw [h1] at hE2
      have := Nat.eq_of_mul_eq_mul_right (by positivity) hE2
      omega
    rw [this]
    congr 1
    push_cast
    ring

theorem carry_neg {T : FloatType} {a v : Nat} {x : ℚ} (ha : IsFinite T a) (h : CarryLost T x a v) :
    CarryLost T (-x) (neg T a) (neg T v) := by
  obtain ⟨h1, h2, j, h3, h4, h5, h6⟩ := h
  refine ⟨isFinite_neg h1, ?_, j, h3, ?_, by rwa [abs_neg], ?_⟩
  · rw [(signBit_neg h1.1).1, (signBit_neg ha.1).1, h2]
  · rw [value_neg ha.1, abs_neg]; exact h4
  · rw [value_neg h1.1, abs_neg]; exact h6

/-- Decimal exponent of a number in the finite range. -/
theorem K_range {T : FloatType} {Y : ℚ} {K : Int} (hY1 : 1 ≤ Y) (hY2 : Y < 10 ^ T.digits10)
    (hx1 : 2 ^ emin T ≤ Y * 10 ^ K) (hx2 : Y * 10 ^ K < overflowThreshold T)
    (hfl : T = .float → -50 ≤ K) : T.powLo ≤ K ∧ K ≤ T.powHi := by
  have h10 : (0 : ℚ) < 10 ^ K := by positivity
  have h1 : (10 : ℚ) ^ K < overflowThreshold T := by
    have := mul_le_mul_of_nonneg_right hY1 h10.le
    linarith
  have h2 : (2 : ℚ) ^ emin T < 10 ^ ((T.digits10 : Int) + K) := by
    rw [zpow_add₀ (by norm_num), zpow_natCast]
    exact lt_of_le_of_lt hx1 (mul_lt_mul_of_pos_right hY2 h10)
  have h3 : overflowThreshold T < 10 ^ (T.powHi + 1) := by
    cases T
    · norm_num [overflowThreshold, FloatType.maxExp, FloatType.p, FloatType.powHi]
    · have h6 : (2 : ℚ) ^ 1024 < 10 ^ 344 := by
        exact_mod_cast (by decide +kernel : (2 : ℕ) ^ 1024 < 10 ^ 344)
      have h7 : (0 : ℚ) < 2 ^ (FloatType.double.maxExp - FloatType.double.p - 1) := by positivity
      unfold overflowThreshold
      exact lt_trans (sub_lt_self _ h7) h6
  have h4 := (zpow_lt_zpow_iff_right₀ (show (1 : ℚ) < 10 by norm_num)).mp (lt_trans h1 h3)
  refine ⟨?_, by omega⟩
  cases T with
  | float => exact hfl rfl
  | double =>
    have h5 : (10 : ℚ) ^ (-324 : Int) < 2 ^ emin FloatType.double := by
      have h6 : (2 : ℚ) ^ 1074 < 10 ^ 324 := by
        exact_mod_cast (by decide +kernel : (2 : ℕ) ^ 1074 < 10 ^ 324)
      have h7 : (2 : ℚ) ^ emin FloatType.double = ((2 : ℚ) ^ 1074)⁻¹ := by
        rw [show emin FloatType.double = -((1074 : ℕ) : Int) by decide, zpow_neg, zpow_natCast]
      rw [h7, show (-324 : Int) = -((324 : ℕ) : Int) by decide, zpow_neg, zpow_natCast]
      exact inv_strictAnti₀ (by positivity) h6
    have := (zpow_lt_zpow_iff_right₀ (show (1 : ℚ) < 10 by norm_num)).mp (lt_trans h5 h2)
    simp only [FloatType.digits10, FloatType.powLo] at *
    omega

/-- `krosh` on short numerals in the finite range. -/
theorem krosh_short {T : FloatType} {mem : List Nat} {str : Nat} {n : Numeral} (h : NumeralAt mem str n)
    {m : Nat} {k : Int} (hm : m < 10 ^ T.digits10) (hmk : n.absValue = m * 10 ^ k)
    (hk : T = .float → -50 ≤ k) (hx1 : 2 ^ emin T ≤ n.absValue) (hx2 : n.absValue < overflowThreshold T) :
    ∃ v acc, krosh T mem str = .ok { value := v, strEnd := str + n.text.length, status := .success, isAccurate := acc } ∧
      (acc = true → ∃ b, value T b ≠ 0 ∧ Identifies T n.value b ∧
        ((v = b ∧ (k = 0 → ¬ 10 ∣ m → absPat T b % 2 ^ (T.p - 1) = 0 → |value T b| ≤ n.absValue)) ∨ CarryLost T n.value b v)) ∧
      (acc = false → ∃ a, a < posInf T ∧ |n.absValue - Mid T a| < n.absValue * (5 / 2 ^ T.W) ∧
        (k = 0 → ¬ 10 ∣ m → n.absValue = Mid T a)) ∧
      ((∃ a, a < posInf T ∧ n.absValue = Mid T a) → acc = false) := by
  have hu := emin_pos T
  have hx0 : 0 < n.absValue := by linarith
  obtain ⟨w, Y, K, w1, w2, w3, w4, w5, w6, w7, w8, w9, w10, w12, w11⟩ := krosh_num (T := T) h hx0.ne'
  have hY := w9 ⟨m, k, hm, hmk⟩
  have hkK := w10 m k hm hmk
  have hK0 : k = 0 → ¬ 10 ∣ m → K = 0 := by
    intro hk0 hm10
    obtain ⟨P, hP, hP10⟩ := w12 ⟨m, k, hm, hmk⟩
    by_contra hne
    obtain ⟨i, hi⟩ : ∃ i : Nat, K = (i + 1 : Nat) := ⟨(K - 1).toNat, by omega⟩
    rw [hmk, hP, hk0, zpow_zero, mul_one, hi, zpow_natCast] at w5
    have w5' : m = P * 10 ^ (i + 1) := by exact_mod_cast w5
    exact hm10 ⟨P * 10 ^ i, by rw [w5', pow_succ]; ring⟩
  have hKr := K_range w6 w7 (w5 ▸ hx1) (w5 ▸ hx2) (fun hT => le_trans (hk hT) hkK)
  obtain ⟨v, acc, t1, t2, t3, t4⟩ := tail_exact (pos := !n.isNeg) (strEnd := str + n.text.length)
    w1 w2 hY (Or.inr hKr) (w5 ▸ hx1) (w5 ▸ hx2)
  rw [← w5] at t2 t3 t4
  refine ⟨_, acc, by rw [w11, t1], ?_, ?_, t4⟩
  · intro ha
    obtain ⟨a, a1, a2, a3, a4⟩ := t2 ha
    have hva : value T a ≠ 0 := by
      rw [Ne, value_zero_iff, absPat_of_lt a1]; exact a2
    have hc : (v = a ∧ (k = 0 → ¬ 10 ∣ m → a % 2 ^ (T.p - 1) = 0 → |value T a| ≤ n.absValue)) ∨
        CarryLost T n.absValue a v := by
      rcases a4 with ⟨b1, b2⟩ | ⟨b1, b2, b3⟩
      · refine Or.inl ⟨b1, fun hk0 hm10 hz => ?_⟩
        rw [value_abs_of_lt a1]
        exact b2 (hK0 hk0 hm10) hz
      · right; rw [b3]; exact carry_of a1 a2 b1 hx0.le b2
    unfold Numeral.value
    cases n.isNeg
    · exact ⟨a, hva, a3, by rw [absPat_of_lt a1]; exact hc⟩
    · refine ⟨neg T a, ?_, identifies_neg a3, ?_⟩
      · rw [value_neg (lt_posInf_lt a1)]; exact neg_ne_zero.mpr hva
      · rcases hc with ⟨rfl, hc⟩ | hc
        · refine Or.inl ⟨rfl, ?_⟩
          rw [(signBit_neg (lt_posInf_lt a1)).2.1, absPat_of_lt a1, value_neg (lt_posInf_lt a1), abs_neg]
          exact hc
        · exact Or.inr (carry_neg (isFinite_of_lt a1) hc)
  · intro ha
    obtain ⟨a, a1, a2, a3⟩ := t3 ha
    exact ⟨a, a1, a2, fun h1 h2 => a3 (hK0 h1 h2)⟩

/-! ## `atof` -/

theorem text_pos {n : Numeral} (h : n.Valid) : 0 < n.text.length := by
  have := h.1
  rw [List.length_pos_iff]
  intro h0
  apply this
  simp only [Numeral.text, Numeral.mantText, List.append_eq_nil_iff, List.map_eq_nil_iff] at h0
  obtain ⟨⟨-, h1, h2⟩, -⟩ := h0
  cases hf : n.frac with
  | none => simp [h1, Numeral.fracDigits, hf]
  | some f => rw [hf] at h2; simp at h2

/-- What `atof` makes of an outcome of `krosh`. -/
theorem atof_of_krosh {T : FloatType} {fb : Fallback} {errno : Nat} {mem : List Nat} {str : Nat} {r : KroshResult}
    (h : krosh T mem str = .ok r) (hs : r.strEnd ≠ str) :
    atof T fb errno mem str = .ok (if r.isAccurate then ⟨r.value, r.status, r.strEnd, errno, false⟩ else
      ⟨(fb mem str errno).value, checkErrno T (fb mem str errno).errno (fb mem str errno).value,
        (fb mem str errno).strEnd, (fb mem str errno).errno, true⟩) := by
  unfold atof
  rw [h, ok_bind, if_pos hs]
  cases r.isAccurate <;> rfl

theorem mid_value {T : FloatType} {a : Nat} (h : a + 1 < posInf T) :
    Mid T a = (value T a + value T (a + 1)) / 2 ∧ value T a < value T (a + 1) ∧ 0 ≤ value T a := by
  have hu := emin_pos T
  rw [value_of_lt h, value_of_lt (show a < posInf T by omega)]
  refine ⟨by unfold Mid; ring, ?_, by positivity⟩
  apply mul_lt_mul_of_pos_right _ hu
  exact_mod_cast N_lt (T := T) (Nat.lt_succ_self a)

theorem mid_limit (T : FloatType) : Mid T (posInf T - 1) = overflowThreshold T := by
  have := overflowThreshold_eq T
  unfold Mid
  rw [Nat.sub_add_cancel (posInf_pos T)]
  linarith

/-- No finite value lies strictly between consecutive patterns. -/
theorem no_between {T : FloatType} {a c : Nat} (h1 : (N T a : ℚ) * 2 ^ emin T < value T c)
    (h2 : value T c < (N T (a + 1) : ℚ) * 2 ^ emin T) : False := by
  have hu := emin_pos T
  rcases value_cases T c with hc | hc
  · rw [hc] at h1 h2
    have g1' : N T a < N T (absPat T c) := by exact_mod_cast lt_of_mul_lt_mul_right h1 hu.le
    have g2' : N T (absPat T c) < N T (a + 1) := by exact_mod_cast lt_of_mul_lt_mul_right h2 hu.le
    have k1 := (N_strictMono T).lt_iff_lt.mp g1'
    have k2 := (N_strictMono T).lt_iff_lt.mp g2'
    omega
  · have h3 : value T c ≤ 0 := by rw [hc]; simp; positivity
    have h4 : 0 ≤ (N T a : ℚ) * 2 ^ emin T := by positivity
    linarith

theorem mid_tie {T : FloatType} {a : Nat} (h : a < posInf T) : IsTieOrLimit T (Mid T a) := by
  by_cases ha : a + 1 < posInf T
  · left
    obtain ⟨h1, h2, h3⟩ := mid_value ha
    refine ⟨a, a + 1, isFinite_of_lt h, isFinite_of_lt ha, h2.ne, ?_, ?_⟩
    · rw [h1, abs_of_nonneg (by linarith), abs_of_nonpos (by linarith)]; ring
    · intro c hc
      by_contra hlt
      push Not at hlt
      have e1 : |Mid T a - value T a| = (value T (a + 1) - value T a) / 2 := by
        rw [h1, abs_of_nonneg (by linarith)]; ring
      rw [e1, abs_lt, h1] at hlt
      have g1 : value T a < value T c := by linarith [hlt.2]
      have g2 : value T c < value T (a + 1) := by linarith [hlt.1]
      rw [value_of_lt h] at g1
      rw [value_of_lt ha] at g2
      exact no_between g1 g2
  · right
    have hae : a = posInf T - 1 := by omega
    rw [hae, mid_limit, abs_of_pos (threshold_pos T)]

theorem tie_mid_aux {T : FloatType} {x : ℚ} (hx : 0 ≤ x) {b b' : Nat} (hb : IsFinite T b) (hb' : IsFinite T b')
    (hlt : value T b < value T b') (he : |x - value T b| = |x - value T b'|)
    (hmin : ∀ c, IsFinite T c → |x - value T b| ≤ |x - value T c|) : ∃ a, a < posInf T ∧ x = Mid T a := by
  have hxm : x = (value T b + value T b') / 2 := by
    rcases abs_eq_abs.mp he with h | h <;> linarith
  have e1 : |x - value T b| = (value T b' - value T b) / 2 := by
    rw [hxm, abs_of_nonneg (by linarith)]; ring
  have hz : IsFinite T 0 := isFinite_of_lt (posInf_pos T)
  have hz0 : value T 0 = 0 := value_zero_iff.mpr (by simp [absPat])
  have hb0 : 0 ≤ value T b := by
    by_contra hc
    push Not at hc
    have := hmin 0 hz
    rw [e1, hz0, sub_zero, abs_of_nonneg hx, hxm] at this
    linarith
  have ha := absPat_lt_posInf hb
  have ha' := absPat_lt_posInf hb'
  have hu := emin_pos T
  have v1 : value T b = N T (absPat T b) * 2 ^ emin T := by
    rcases value_cases T b with h | h
    · exact h
    · have : 0 ≤ (N T (absPat T b) : ℚ) * 2 ^ emin T := by positivity
      linarith
  have v2 : value T b' = N T (absPat T b') * 2 ^ emin T := by
    rcases value_cases T b' with h | h
    · exact h
    · have : 0 ≤ (N T (absPat T b') : ℚ) * 2 ^ emin T := by positivity
      linarith
  refine ⟨absPat T b, ha, ?_⟩
  rw [v1, v2] at hlt
  have k1 : N T (absPat T b) < N T (absPat T b') := by exact_mod_cast lt_of_mul_lt_mul_right hlt hu.le
  have k2 := (N_strictMono T).lt_iff_lt.mp k1
  by_cases hk : absPat T b + 1 = absPat T b'
  · rw [hxm, v1, v2, ← hk]; unfold Mid; ring
  · exfalso
    have ha1 : absPat T b + 1 < posInf T := by omega
    have := hmin _ (isFinite_of_lt ha1)
    obtain ⟨-, m2, -⟩ := mid_value ha1
    have w1 : value T (absPat T b) = value T b := by rw [value_of_lt ha, v1]
    have w2 : value T (absPat T b + 1) < value T b' := by
      rw [value_of_lt ha1, v2]
      apply mul_lt_mul_of_pos_right _ hu
      exact_mod_cast N_lt (T := T) (show absPat T b + 1 < absPat T b' by omega)
    rw [w1] at m2
    rw [e1] at this
    have : |x - value T (absPat T b + 1)| < (value T b' - value T b) / 2 := by
      rw [abs_lt, hxm]; constructor <;> linarith
    linarith

theorem tie_mid {T : FloatType} {x : ℚ} (hx : 0 ≤ x) (h : IsTieOrLimit T x) :
    ∃ a, a < posInf T ∧ x = Mid T a := by
  rcases h with ⟨b, b', h1, h2, h3, h4, h5⟩ | h
  · rcases lt_or_gt_of_ne h3 with h | h
    · exact tie_mid_aux hx h1 h2 h h4 h5
    · exact tie_mid_aux hx h2 h1 h h4.symm (fun c hc => h4 ▸ h5 c hc)
  · rw [abs_of_nonneg hx] at h
    exact ⟨posInf T - 1, by have := posInf_pos T; omega, by rw [mid_limit, h]⟩

theorem isZero_iff {T : FloatType} {b : Nat} : isZero T b = true ↔ value T b = 0 := by
  rw [value_zero_iff]
  unfold isZero FloatType.absBits absPat
  simp

/-! ## Representable numbers -/

theorem N_lt_ulp (T : FloatType) (a : Nat) : N T a < 2 ^ T.p * ulpN T a := by
  have hp : 2 ^ T.p = 2 * 2 ^ (T.p - 1) := by cases T <;> decide
  unfold N ulpN
  have hm := Nat.mod_lt a (show 0 < 2 ^ (T.p - 1) by positivity)
  rw [hp]
  generalize 2 ^ (T.p - 1) = P at *
  split_ifs with h
  · rw [h]; simp; omega
  · apply Nat.mul_lt_mul_of_pos_right (by omega) (by positivity)

theorem N_succ_le_ulp (T : FloatType) (a : Nat) : N T (a + 1) ≤ 2 ^ T.p * ulpN T a := by
  have hp : 2 ^ T.p = 2 * 2 ^ (T.p - 1) := by cases T <;> decide
  rw [N_succ]
  unfold N ulpN
  have hm := Nat.mod_lt a (show 0 < 2 ^ (T.p - 1) by positivity)
  rw [hp]
  generalize 2 ^ (T.p - 1) = P at *
  split_ifs with h
  · rw [h]; simp; omega
  · have : (P + a % P) * 2 ^ (a / P - 1) + 2 ^ (a / P - 1) = (P + a % P + 1) * 2 ^ (a / P - 1) := by ring
    rw [this]
    exact Nat.mul_le_mul_right _ (by omega)

/-- A representable number is not close to a midpoint. -/
theorem repr_not_near_mid {T : FloatType} {a c : Nat}
    (h : |(N T c : ℚ) * 2 ^ emin T - Mid T a| < N T c * 2 ^ emin T * (5 / 2 ^ T.W)) : False := by
  have hu := emin_pos T
  have hU : (0 : ℚ) < ulpN T a := by exact_mod_cast ulpN_pos T a
  have h1 := N_succ T a
  have h1' : (N T (a + 1) : ℚ) = N T a + ulpN T a := by exact_mod_cast h1
  have h2 : (N T a : ℚ) ≤ 2 ^ T.p * ulpN T a := by exact_mod_cast (N_lt_ulp T a).le
  have h3 : (N T (a + 1) : ℚ) ≤ 2 ^ T.p * ulpN T a := by exact_mod_cast N_succ_le_ulp T a
  have hW : (2 : ℚ) ^ T.p * 256 ≤ 2 ^ T.W := by cases T <;> norm_num [FloatType.p, FloatType.W]
  have hWp : (0 : ℚ) < 2 ^ T.W := by positivity
  have h5 : (5 : ℚ) / 2 ^ T.W ≤ 1 / 2 := by
    rw [div_le_div_iff₀ hWp (by norm_num)]
    have : (1 : ℚ) ≤ 2 ^ T.p := one_le_pow₀ (by norm_num)
    linarith
  have h6 : (2 : ℚ) ^ T.p * (5 / 2 ^ T.W) < 1 / 2 := by
    rw [← mul_div_assoc, div_lt_div_iff₀ hWp (by norm_num)]
    have : (0 : ℚ) < 2 ^ T.p := by positivity
    linarith
  have h7 : ∀ z : ℚ, z ≤ 2 ^ T.p * ulpN T a → z * (5 / 2 ^ T.W) < ulpN T a / 2 := by
    intro z hz
    calc z * (5 / 2 ^ T.W) ≤ (2 ^ T.p * ulpN T a) * (5 / 2 ^ T.W) :=
          mul_le_mul_of_nonneg_right hz (by positivity)
      _ = (2 ^ T.p * (5 / 2 ^ T.W)) * ulpN T a := by ring
      _ < 1 / 2 * ulpN T a := mul_lt_mul_of_pos_right h6 hU
      _ = _ := by ring
  have key : |(N T c : ℚ) - (N T a + N T (a + 1)) / 2| < N T c * (5 / 2 ^ T.W) := by
    have e : (N T c : ℚ) * 2 ^ emin T - Mid T a = (N T c - (N T a + N T (a + 1)) / 2) * 2 ^ emin T := by
      unfold Mid; ring
    rw [e, abs_mul, abs_of_pos hu] at h
    apply lt_of_mul_lt_mul_right _ hu.le
    calc _ < _ := h
      _ = _ := by ring
  rw [abs_lt] at key
  rcases Nat.lt_or_ge a c with hc | hc
  · have h8 : (N T (a + 1) : ℚ) ≤ N T c := by exact_mod_cast N_le (T := T) hc
    have h9 := h7 _ h3
    have h10 : ((N T c : ℚ) - N T (a + 1)) * (5 / 2 ^ T.W) ≤ (N T c - N T (a + 1)) * (1 / 2) :=
      mul_le_mul_of_nonneg_left h5 (by linarith)
    rw [sub_mul] at h10
    linarith [key.2]
  · have h8 : (N T c : ℚ) ≤ N T a := by exact_mod_cast N_le (T := T) hc
    have h9 := h7 _ (le_trans h8 h2)
    linarith [key.1]

theorem exists_shift {P : Nat} : ∀ (t q : Nat), q < 2 * P → P ≤ q * 2 ^ t →
    ∃ i, i ≤ t ∧ P ≤ q * 2 ^ i ∧ q * 2 ^ i < 2 * P
  | 0, q, h1, h2 => ⟨0, le_rfl, h2, by simpa using h1⟩
  | t + 1, q, h1, h2 => by
    by_cases h : P ≤ q
    · exact ⟨0, by omega, by simpa using h, by simpa using h1⟩
    · obtain ⟨i, i1, i2, i3⟩ := exists_shift (P := P) t (q * 2) (by omega) (by rw [pow_succ'] at h2; linarith)
      exact ⟨i + 1, by omega, by rw [pow_succ']; linarith, by rw [pow_succ']; linarith⟩

/-- `q * 2^t` units, with `q` of at most `p` bits, is representable. -/
theorem exists_N {T : FloatType} {q t : Nat} (hq : q < 2 ^ T.p) : ∃ a, N T a = q * 2 ^ t := by
  have hp : 2 ^ T.p = 2 * 2 ^ (T.p - 1) := by cases T <;> decide
  rw [hp] at hq
  by_cases h : q * 2 ^ t < 2 ^ (T.p - 1)
  · refine ⟨q * 2 ^ t, ?_⟩
    unfold N
    rw [Nat.div_eq_of_lt h, if_pos rfl, Nat.mod_eq_of_lt h]; simp
  · obtain ⟨i, i1, i2, i3⟩ := exists_shift t q hq (by omega)
    refine ⟨(t - i + 1) * 2 ^ (T.p - 1) + (q * 2 ^ i - 2 ^ (T.p - 1)), ?_⟩
    have hP : 0 < 2 ^ (T.p - 1) := by positivity
    have hr : q * 2 ^ i - 2 ^ (T.p - 1) < 2 ^ (T.p - 1) := by omega
    unfold N
    have hd : ((t - i + 1) * 2 ^ (T.p - 1) + (q * 2 ^ i - 2 ^ (T.p - 1))) / 2 ^ (T.p - 1) = t - i + 1 := by
      rw [Nat.mul_comm, Nat.mul_add_div hP, Nat.div_eq_of_lt hr, add_zero]
    have hm : ((t - i + 1) * 2 ^ (T.p - 1) + (q * 2 ^ i - 2 ^ (T.p - 1))) % 2 ^ (T.p - 1) = q * 2 ^ i - 2 ^ (T.p - 1) := by
      rw [Nat.mul_comm, Nat.mul_add_mod, Nat.mod_eq_of_lt hr]
    rw [hd, hm, if_neg (by omega), Nat.add_sub_cancel, Nat.add_sub_cancel' i2, mul_assoc, ← pow_add,
      Nat.add_sub_cancel' i1]

theorem lt_posInf_of_N {T : FloatType} {a : Nat} (h : (N T a : ℚ) * 2 ^ emin T < overflowThreshold T) : a < posInf T := by
  by_contra hc
  have h1 : N T (posInf T) ≤ N T a := N_le (by omega)
  have h2 := N_posInf T
  have h3 : (N T (posInf T) : ℚ) ≤ N T a := by exact_mod_cast h1
  have h4 := mul_le_mul_of_nonneg_right h3 (emin_pos T).le
  have h5 : overflowThreshold T < 2 ^ T.maxExp := sub_lt_self _ (by positivity)
  linarith

theorem identifies_self {T : FloatType} {b : Nat} (hb : IsFinite T b) (h : |value T b| < overflowThreshold T) :
    Identifies T (value T b) b :=
  ⟨hb, h, fun b' _ hne => by rw [sub_self, abs_zero]; exact abs_pos.mpr (sub_ne_zero.mpr hne.symm)⟩

theorem value_lt_threshold {T : FloatType} {b : Nat} (hb : IsFinite T b) : |value T b| < overflowThreshold T := by
  have hu := emin_pos T
  have h0 := absPat_lt_posInf hb
  have h1 : |value T b| = N T (absPat T b) * 2 ^ emin T := by
    have : 0 ≤ (N T (absPat T b) : ℚ) * 2 ^ emin T := by positivity
    rcases value_cases T b with h | h
    · rw [h, abs_of_nonneg this]
    · rw [h, abs_neg, abs_of_nonneg this]
  rw [h1]
  have h2 := overflowThreshold_eq T
  have h3 : (N T (absPat T b) : ℚ) ≤ N T (posInf T - 1) := by exact_mod_cast N_le (T := T) (by omega)
  have h4 : (N T (posInf T - 1) : ℚ) < N T (posInf T) := by exact_mod_cast N_lt (T := T) (by have := posInf_pos T; omega)
  have h5 := mul_le_mul_of_nonneg_right h3 hu.le
  have h6 := mul_lt_mul_of_pos_right h4 hu
  rw [add_mul] at h2
  linarith

theorem identifies_value_unique {T : FloatType} {x : ℚ} {a b : Nat} (ha : Identifies T x a) (hb : Identifies T x b) :
    value T a = value T b := by
  by_contra h
  have h1 := ha.2.2 b hb.1 (fun e => h e.symm)
  have h2 := hb.2.2 a ha.1 h
  linarith

theorem value_abs {T : FloatType} (b : Nat) : |value T b| = N T (absPat T b) * 2 ^ emin T := by
  have hu := emin_pos T
  have : 0 ≤ (N T (absPat T b) : ℚ) * 2 ^ emin T := by positivity
  rcases value_cases T b with h | h
  · rw [h, abs_of_nonneg this]
  · rw [h, abs_neg, abs_of_nonneg this]

theorem absValue_nonneg (n : Numeral) : 0 ≤ n.absValue := by unfold Numeral.absValue; positivity

theorem abs_value_num (n : Numeral) : |n.value| = n.absValue := by
  unfold Numeral.value
  split_ifs
  · rw [abs_neg, abs_of_nonneg (absValue_nonneg n)]
  · rw [abs_of_nonneg (absValue_nonneg n)]

theorem value_ge_emin {T : FloatType} {b : Nat} (h : value T b ≠ 0) : 2 ^ emin T ≤ |value T b| := by
  have hu := emin_pos T
  rw [value_abs]
  have : absPat T b ≠ 0 := fun h0 => h (value_zero_iff.mpr h0)
  have h1 : 1 ≤ N T (absPat T b) := by
    have := N_lt (T := T) (Nat.pos_of_ne_zero this)
    omega
  have h2 : (1 : ℚ) ≤ N T (absPat T b) := by exact_mod_cast h1
  nlinarith

/-- `krosh` on a short numeral of representable value. -/
theorem krosh_repr {T : FloatType} {mem : List Nat} {str : Nat} {n : Numeral} (h : NumeralAt mem str n)
    {m : Nat} {k : Int} (hm : m < 10 ^ T.digits10) (hmk : n.absValue = m * 10 ^ k)
    (hk : T = .float → -50 ≤ k) {b : Nat} (hb : IsFinite T b) (hv : value T b = n.value) (h0 : value T b ≠ 0) :
    krosh T mem str = .ok { value := b, strEnd := str + n.text.length, status := .success, isAccurate := true } := by
  have hav : |value T b| = n.absValue := by rw [hv, abs_value_num]
  obtain ⟨v, acc, h1, h2, h3, -⟩ := krosh_short h hm hmk hk (hav ▸ value_ge_emin h0) (hav ▸ value_lt_threshold hb)
  cases acc with
  | false =>
    exfalso
    obtain ⟨a, -, ha, -⟩ := h3 rfl
    rw [← hav, value_abs] at ha
    exact repr_not_near_mid ha
  | true =>
    obtain ⟨c, c1, c2, c3⟩ := h2 rfl
    have hbc : value T c = value T b := by
      apply identifies_value_unique c2
      rw [← hv]; exact identifies_self hb (value_lt_threshold hb)
    have hcb : c = b := value_inj' c2.1 hb c1 hbc
    rcases c3 with ⟨rfl, -⟩ | ⟨-, -, j, -, j2, j3, -⟩
    · rw [h1, hcb]
    · rw [← hv, ← hbc, j2] at j3
      exact absurd j3 (lt_irrefl _)

/-- The pattern of a power of two. -/
theorem exists_pow2 {T : FloatType} {j : Int} (h1 : T.minExp - 1 ≤ j) (h2 : j < T.maxExp) :
    ∃ a, a < posInf T ∧ a ≠ 0 ∧ a % 2 ^ (T.p - 1) = 0 ∧ (N T a : ℚ) * 2 ^ emin T = 2 ^ j ∧
      (T.minExp ≤ j → (ulpN T (a - 1) : ℚ) * 2 ^ emin T = 2 ^ (j - T.p)) := by
  obtain ⟨E, hE⟩ : ∃ E : Nat, j = T.minExp - 1 + E := ⟨(j - (T.minExp - 1)).toNat, by omega⟩
  have h0 : (E + 1) * 2 ^ (T.p - 1) ≠ 0 := by positivity
  have hm : (E + 1) * 2 ^ (T.p - 1) % 2 ^ (T.p - 1) = 0 := Nat.mul_mod_left _ _
  obtain ⟨E', e1, e2⟩ := N_pow2 (T := T) h0 hm
  have hEE : E' = E := by
    have := Nat.eq_of_mul_eq_mul_right (by positivity) e1
    omega
  subst hEE
  refine ⟨_, ?_, h0, hm, by rw [hE]; exact e2, ?_⟩
  · apply lt_of_not_ge
    intro hc
    have h3 : (N T (posInf T) : ℚ) ≤ N T ((E' + 1) * 2 ^ (T.p - 1)) := by exact_mod_cast N_le (T := T) hc
    have h4 := mul_le_mul_of_nonneg_right h3 (emin_pos T).le
    rw [N_posInf, e2] at h4
    have := (zpow_le_zpow_iff_right₀ (show (1 : ℚ) < 2 by norm_num)).mp h4
    omega
  · intro hj
    have hE1 : 1 ≤ E' := by omega
    have hP : 0 < 2 ^ (T.p - 1) := by positivity
    unfold ulpN
    have hd : ((E' + 1) * 2 ^ (T.p - 1) - 1) / 2 ^ (T.p - 1) = E' := by
      have : (E' + 1) * 2 ^ (T.p - 1) - 1 = 2 ^ (T.p - 1) * E' + (2 ^ (T.p - 1) - 1) := by
        rw [add_mul, one_mul, mul_comm]; omega
      rw [this, Nat.mul_add_div hP, Nat.div_eq_of_lt (by omega), add_zero]
    rw [hd]
    push_cast
    rw [← zpow_natCast, ← zpow_add₀ (by norm_num)]
    congr 1
    unfold emin
    push_cast [Nat.cast_sub hE1]
    omega

/-- Numbers just below a power of two round to it. -/
theorem identifies_pow2 {T : FloatType} {j : Int} {x : ℚ} (h1 : T.minExp ≤ j) (h2 : j < T.maxExp)
    (hx1 : 2 ^ j < x + 2 ^ (j - T.p - 1)) (hx2 : x < 2 ^ j) :
    ∃ a, a < posInf T ∧ a ≠ 0 ∧ a % 2 ^ (T.p - 1) = 0 ∧ (N T a : ℚ) * 2 ^ emin T = 2 ^ j ∧ Identifies T x a := by
  obtain ⟨a, a1, a2, a3, a4, a5⟩ := exists_pow2 (T := T) (j := j) (by omega) h2
  have hu := emin_pos T
  refine ⟨a, a1, a2, a3, a4, ?_⟩
  set X := x / 2 ^ emin T with hX
  have hxX : x = X * 2 ^ emin T := by rw [hX]; field_simp
  have h5 := a5 h1
  have h6 := N_succ T (a - 1)
  rw [Nat.sub_add_cancel (by omega)] at h6
  have h6' : (N T a : ℚ) = N T (a - 1) + ulpN T (a - 1) := by exact_mod_cast h6
  have h7 : (N T (a + 1) : ℚ) = N T a + ulpN T a := by exact_mod_cast N_succ T a
  have h8 : (0 : ℚ) < ulpN T a := by exact_mod_cast ulpN_pos T a
  have hh : (2 : ℚ) ^ (j - T.p - 1) = 2 ^ (j - T.p) / 2 := by rw [zpow_sub_one₀ (by norm_num)]; ring
  have hlt : X < N T a := by
    rw [← a4, hxX] at hx2
    exact lt_of_mul_lt_mul_right hx2 hu.le
  have hgt : (N T a : ℚ) < X + ulpN T (a - 1) / 2 := by
    rw [hh, ← h5, ← a4] at hx1
    apply lt_of_mul_lt_mul_right _ hu.le
    rw [hxX] at hx1
    linarith
  have hX0 : 0 ≤ X := by
    have : (0 : ℚ) ≤ N T (a - 1) := Nat.cast_nonneg _
    have : (0 : ℚ) < ulpN T (a - 1) := by exact_mod_cast ulpN_pos T (a - 1)
    linarith
  rw [hxX]
  exact closest_pos a1 hX0 (Or.inr (by linarith)) (by linarith)

end Floaxie
