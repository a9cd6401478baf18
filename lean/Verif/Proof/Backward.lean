import Verif.Proof.Unique
import Verif.Proof.Atof
import Verif.Spec.Error

/-! # Backward error of the conversion, for any number of digits -/

namespace Floaxie

open Spec FloatType

theorem slack_pos (T : FloatType) : 0 < slack T := by
  cases T <;> norm_num [slack]

/-- The scaled number is relatively close to the exact one. -/
theorem scale_rel {T : FloatType} {w : DiyFp} {K : Int} {Y : ℚ} (h1 : 2 ^ (T.W - 1) ≤ w.f)
    (h2 : w.f < 2 ^ T.W) (hK : K = 0 ∨ (T.powLo ≤ K ∧ K ≤ T.powHi)) (hY : |Y - w.f * 2 ^ w.e| ≤ mantErr T * 2 ^ w.e) :
    ∃ w', scaleStep T w K = .ok w' ∧ 2 ^ (T.W - 1) ≤ w'.f ∧ w'.f < 2 ^ T.W ∧
      |(w'.f : ℚ) * 2 ^ w'.e - Y * 10 ^ K| ≤ Y * 10 ^ K * slack T := by
  obtain ⟨w', y, j, g1, g2, g3, g4, -, g5, g6, -⟩ := scale_ok h1 h2 hK (by cases T <;> norm_num [mantErr]) hY
  refine ⟨w', g1, g2, g3, ?_⟩
  have hep : (0 : ℚ) < 2 ^ w'.e := by positivity
  rw [g5, ← sub_mul, abs_mul, abs_of_pos hep, mul_right_comm]
  apply mul_le_mul_of_nonneg_right _ hep.le
  have hj : (2 : ℚ) ^ j ≤ 2 := by interval_cases j <;> norm_num
  have hm : (0 : ℚ) < 1 + mantErr T := by cases T <;> norm_num [mantErr]
  have h6 : |y - w'.f| < (1 + mantErr T) * 2 := lt_of_lt_of_le g6 (mul_le_mul_of_nonneg_left hj hm.le)
  have h7 : (2 : ℚ) ^ (T.W - 1) ≤ w'.f := by exact_mod_cast g2
  rw [abs_sub_comm]
  have h8 : (2 : ℚ) ^ (T.W - 1) - (1 + mantErr T) * 2 < y := by
    have := (abs_lt.mp h6).1; linarith
  have h9 : (1 + mantErr T) * 2 ≤ ((2 : ℚ) ^ (T.W - 1) - (1 + mantErr T) * 2) * slack T := by
    cases T <;> norm_num [mantErr, slack, FloatType.W]
  have h10 := mul_le_mul_of_nonneg_right h8.le (slack_pos T).le
  linarith

/-- What `krosh` does with a numeral of non-zero value, with any number of digits. -/
theorem krosh_backward {T : FloatType} {mem : List Nat} {str : Nat} {n : Numeral} (h : NumeralAt mem str n)
    (h0 : n.absValue ≠ 0) :
    (n.absValue < 10 ^ (T.powLo - 1 + T.digits10) ∧
      (∀ (m : Nat) (k : Int), m < 10 ^ T.digits10 → n.absValue = m * 10 ^ k → k < T.powLo) ∧
      krosh T mem str = .ok ⟨0, str + n.text.length, .underflow, true⟩) ∨
    (10 ^ (T.powHi + 1) ≤ n.absValue ∧
      krosh T mem str = .ok ⟨posInf T, str + n.text.length, .overflow, true⟩) ∨
    (∃ w : DiyFp, 2 ^ (T.W - 1) ≤ w.f ∧ w.f < 2 ^ T.W ∧ |(w.f : ℚ) * 2 ^ w.e - n.absValue| ≤ n.absValue * slack T ∧
      10 ^ T.powLo ≤ n.absValue ∧
      ∃ v st acc, w.downsample T = .ok ⟨v, st, acc⟩ ∧
        krosh T mem str = .ok ⟨if n.isNeg then neg T v else v, str + n.text.length, st, acc⟩) := by
  obtain ⟨w, Y, K, w1, w2, -, -, w5, w6, w7, w8, -, w10, -, w11⟩ := krosh_num (T := T) h h0
  have h10 : (0 : ℚ) < 10 ^ K := by positivity
  have hinf : T.infBits = posInf T := by cases T <;> decide
  have hz : T.powLo ≤ 0 ∧ 0 ≤ T.powHi := by cases T <;> decide
  by_cases hlo : K < T.powLo
  · left
    refine ⟨?_, fun m k hm hmk => lt_of_le_of_lt (w10 m k hm hmk) hlo, ?_⟩
    · rw [w5, zpow_add₀ (by norm_num), zpow_natCast, mul_comm (_ ^ _)]
      have h1 : (10 : ℚ) ^ K ≤ 10 ^ (T.powLo - 1) := zpow_le_zpow_right₀ (by norm_num) (by omega)
      calc Y * 10 ^ K < 10 ^ T.digits10 * 10 ^ K := mul_lt_mul_of_pos_right w7 h10
        _ ≤ _ := mul_le_mul_of_nonneg_left h1 (by positivity)
    · rw [w11]
      unfold kroshTail
      rw [if_pos (by omega), if_pos (by omega)]; rfl
  · right
    by_cases hhi : T.powHi < K
    · left
      refine ⟨?_, ?_⟩
      · rw [w5]
        have h1 : (10 : ℚ) ^ (T.powHi + 1) ≤ 10 ^ K := zpow_le_zpow_right₀ (by norm_num) (by omega)
        calc (10 : ℚ) ^ (T.powHi + 1) ≤ 10 ^ K := h1
          _ = 1 * 10 ^ K := by ring
          _ ≤ _ := mul_le_mul_of_nonneg_right w6 h10.le
      · rw [w11]
        unfold kroshTail
        rw [if_pos (by omega), if_neg (by omega), hinf]; rfl
    · right
      obtain ⟨w', g1, g2, g3, g4⟩ := scale_rel w1 w2 (Or.inr ⟨by omega, by omega⟩ : K = 0 ∨ (T.powLo ≤ K ∧ K ≤ T.powHi)) w8
      rw [← w5] at g4
      refine ⟨w', g2, g3, g4, ?_, ?_⟩
      · rw [w5]
        calc (10 : ℚ) ^ T.powLo ≤ 10 ^ K := zpow_le_zpow_right₀ (by norm_num) (by omega)
          _ = 1 * 10 ^ K := by ring
          _ ≤ _ := mul_le_mul_of_nonneg_right w6 h10.le
      · have key : ∃ v st acc, w'.downsample T = .ok ⟨v, st, acc⟩ := by
          rcases downsample_total T w' g2 g3 with ⟨-, h⟩ | ⟨-, h⟩ | ⟨-, -, v, acc, h⟩ <;> exact ⟨_, _, _, h⟩
        obtain ⟨v, st, acc, hd⟩ := key
        refine ⟨v, st, acc, hd, ?_⟩
        rw [w11]
        unfold kroshTail
        rw [if_neg (by omega), g1, ok_bind, hd, ok_bind, negBits_eq]
        cases n.isNeg <;> rfl

/-- Size of a normalized number. -/
theorem norm_size {T : FloatType} {w : DiyFp} (h1 : 2 ^ (T.W - 1) ≤ w.f) (h2 : w.f < 2 ^ T.W) :
    (2 : ℚ) ^ (w.e + T.W - 1) ≤ w.f * 2 ^ w.e ∧ (w.f : ℚ) * 2 ^ w.e < 2 ^ (w.e + T.W) := by
  have hep : (0 : ℚ) < 2 ^ w.e := by positivity
  have a1 : (2 : ℚ) ^ (T.W - 1) ≤ w.f := by exact_mod_cast h1
  have a2 : (w.f : ℚ) < 2 ^ T.W := by exact_mod_cast h2
  have hW := W_pos T
  constructor
  · rw [show w.e + T.W - 1 = ((T.W - 1 : Nat) : Int) + w.e by omega, zpow_add₀ (by norm_num), zpow_natCast]
    exact mul_le_mul_of_nonneg_right a1 hep.le
  · rw [add_comm, zpow_add₀ (by norm_num), zpow_natCast]
    exact mul_lt_mul_of_pos_right a2 hep

theorem exp_le_of {a b : Int} {x : ℚ} (h1 : (2 : ℚ) ^ a ≤ x) (h2 : x < 2 ^ b) : a < b :=
  (zpow_lt_zpow_iff_right₀ (show (1 : ℚ) < 2 by norm_num)).mp (lt_of_le_of_lt h1 h2)

/-- Distinct finite values are relatively far apart. -/
theorem N_gap {T : FloatType} {a b : Nat} (h : a < b) : N T b ≤ 2 ^ T.p * (N T b - N T a) := by
  have h1 := N_succ_le_ulp T a
  have h2 := N_succ T a
  have h3 : N T (a + 1) ≤ N T b := N_le h
  have hp : 1 ≤ 2 ^ T.p := Nat.one_le_two_pow
  obtain ⟨d, hd⟩ : ∃ d, N T b = N T a + ulpN T a + d := ⟨N T b - N T (a + 1), by omega⟩
  rw [hd, show N T a + ulpN T a + d - N T a = ulpN T a + d by omega, mul_add]
  have : d ≤ 2 ^ T.p * d := Nat.le_mul_of_pos_left d (by positivity)
  omega

theorem kroshTail_zero {T : FloatType} {w : DiyFp} (h1 : 2 ^ (T.W - 1) ≤ w.f) (h2 : w.f < 2 ^ T.W) {v : Nat} {st : Status}
    {acc : Bool} (hd : w.downsample T = .ok ⟨v, st, acc⟩) (strEnd : Nat) :
    kroshTail T w 0 true strEnd = .ok ⟨v, strEnd, st, acc⟩ := by
  unfold kroshTail scaleStep
  rw [if_neg (by simp), if_neg (by simp), pure_bind', normalize_id h1 h2, ok_bind, hd, ok_bind]
  rfl

/-- `downsample` in the finite range: correct rounding, or a tie, or the carry lost. -/
theorem downsample_finite {T : FloatType} {w : DiyFp} (h1 : 2 ^ (T.W - 1) ≤ w.f) (h2 : w.f < 2 ^ T.W) {v : Nat} {st : Status}
    {acc : Bool} (hd : w.downsample T = .ok ⟨v, st, acc⟩) (hx1 : 2 ^ emin T ≤ (w.f : ℚ) * 2 ^ w.e)
    (hx2 : (w.f : ℚ) * 2 ^ w.e < overflowThreshold T) :
    st = .success ∧
      (acc = true → ∃ a, a < posInf T ∧ a ≠ 0 ∧ Identifies T (w.f * 2 ^ w.e) a ∧ (v = a ∨ CarryLost T (w.f * 2 ^ w.e) a v)) ∧
      (acc = false → ∃ a, a < posInf T ∧ (w.f : ℚ) * 2 ^ w.e = Mid T a) := by
  obtain ⟨v', acc', t1, t2, t3, -⟩ := tail_exact (pos := true) (strEnd := 0) (K := 0) h1 h2 rfl (Or.inl rfl)
    (by simpa using hx1) (by simpa using hx2)
  rw [kroshTail_zero h1 h2 hd, if_pos rfl] at t1
  cases t1
  simp only [zpow_zero, mul_one] at t2 t3
  refine ⟨rfl, fun ha => ?_, fun ha => ?_⟩
  · obtain ⟨a, a1, a2, a3, a4⟩ := t2 ha
    refine ⟨a, a1, a2, a3, ?_⟩
    rcases a4 with ⟨b1, -⟩ | ⟨b1, b2, b3⟩
    · exact Or.inl b1
    · right; rw [b3]; exact carry_of a1 a2 b1 (by positivity) b2
  · obtain ⟨a, a1, -, a3⟩ := t3 ha
    exact ⟨a, a1, a3 trivial⟩

theorem pow_lo {T : FloatType} : (10 : ℚ) ^ (T.powLo - 1 + T.digits10) ≤ if T = .float then 10 ^ (-42 : Int) else 2 ^ emin T / 2 := by
  cases T with
  | float => rw [if_pos rfl]; exact le_of_eq (by congr 1)
  | double =>
    rw [if_neg (by simp)]
    have h6 : (2 : ℚ) ^ 1075 < 10 ^ 325 := by
      exact_mod_cast (by decide +kernel : (2 : ℕ) ^ 1075 < 10 ^ 325)
    have h7 : (2 : ℚ) ^ emin FloatType.double / 2 = ((2 : ℚ) ^ 1075)⁻¹ := by
      rw [show emin FloatType.double = -((1074 : ℕ) : Int) by decide, zpow_neg, zpow_natCast, pow_succ 2 1074]
      field_simp
    rw [h7, show FloatType.double.powLo - 1 + (FloatType.double.digits10 : Int) = -((325 : ℕ) : Int) by decide, zpow_neg, zpow_natCast]
    exact (inv_strictAnti₀ (by positivity) h6).le

theorem pow_hi {T : FloatType} : (2 : ℚ) ^ (T.maxExp + T.W - 1) * 2 ≤ 10 ^ (T.powHi + 1) := by
  rw [← zpow_add_one₀ (by norm_num)]
  cases T with
  | float =>
    have : (2 : ℚ) ^ 160 ≤ 10 ^ 51 := by norm_num
    rw [show FloatType.float.maxExp + (FloatType.float.W : Int) - 1 + 1 = ((160 : ℕ) : Int) by decide,
      show FloatType.float.powHi + 1 = ((51 : ℕ) : Int) by decide, zpow_natCast, zpow_natCast]
    exact this
  | double =>
    have : (2 : ℚ) ^ 1088 ≤ 10 ^ 344 := by
      exact_mod_cast (by decide +kernel : (2 : ℕ) ^ 1088 ≤ 10 ^ 344)
    rw [show FloatType.double.maxExp + (FloatType.double.W : Int) - 1 + 1 = ((1088 : ℕ) : Int) by decide,
      show FloatType.double.powHi + 1 = ((344 : ℕ) : Int) by decide, zpow_natCast, zpow_natCast]
    exact this

theorem threshold_lt {T : FloatType} : overflowThreshold T < 2 ^ T.maxExp := by
  unfold overflowThreshold
  have : (0 : ℚ) < 2 ^ (T.maxExp - T.p - 1) := by positivity
  linarith

end Floaxie
