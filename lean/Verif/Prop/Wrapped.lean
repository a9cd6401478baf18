import Verif.Prop.Range
import Verif.Prop.Errors

/-!
# C25: what is read where the overflow goes unnoticed
-/

namespace Floaxie

open Spec FloatType

/-- The fraction bits and the flag do not depend on the exponent, which is stored as it is. -/
theorem downsample_raw (T : FloatType) (f : Nat) (hf1 : 2 ^ (T.W - 1) ≤ f) (hf2 : f < 2 ^ T.W) :
    ∃ (q : Nat) (acc : Bool), 2 ^ (T.p - 1) ≤ q ∧ q ≤ 2 ^ T.p ∧
      (2 * q * 2 ^ (T.W - T.p) ≤ 2 * f + 2 ^ (T.W - T.p) ∧ 2 * f ≤ 2 * q * 2 ^ (T.W - T.p) + 2 ^ (T.W - T.p)) ∧ ∀ e : Int, T.minExp - T.W ≤ e → e < T.maxExp →
      ∃ E : Nat, (E : Int) = e + T.W + T.maxExp - 2 ∧
        DiyFp.downsample T ⟨f, e⟩ = .ok ⟨E * 2 ^ (T.p - 1) + q % 2 ^ (T.p - 1), .success, acc⟩ := by
  have hWp : 0 < T.W - T.p := by cases T <;> simp [FloatType.W, FloatType.p]
  have hf0 : f ≠ 0 := by have : 0 < 2 ^ (T.W - 1) := by positivity
                         omega
  obtain ⟨rd, hround, hrv⟩ : ∃ rd, roundUp T.W f (T.W - T.p) = .ok rd ∧ rd.value =
      decide (2 ^ (T.W - T.p - 1) < f % 2 ^ (T.W - T.p) ∨
        (f % 2 ^ (T.W - T.p) = 2 ^ (T.W - T.p - 1) ∧ f / 2 ^ (T.W - T.p) % 2 = 1)) :=
    ⟨_, roundUp_eq (by omega) (by omega) hf2, rfl⟩
  have hq : (f >>> (T.W - T.p) + (if rd.value then 1 else 0)) % 2 ^ T.W =
      f / 2 ^ (T.W - T.p) + (if rd.value then 1 else 0) ∧
      2 ^ (T.p - 1) ≤ f / 2 ^ (T.W - T.p) + (if rd.value then 1 else 0) ∧
      f / 2 ^ (T.W - T.p) + (if rd.value then 1 else 0) ≤ 2 ^ T.p ∧
      2 * (f / 2 ^ (T.W - T.p) + (if rd.value then 1 else 0)) * 2 ^ (T.W - T.p) ≤ 2 * f + 2 ^ (T.W - T.p) ∧
      2 * f ≤ 2 * (f / 2 ^ (T.W - T.p) + (if rd.value then 1 else 0)) * 2 ^ (T.W - T.p) + 2 ^ (T.W - T.p) := by
    rw [hrv, Nat.shiftRight_eq_div_pow]
    clear hround hrv
    cases T <;> simp only [FloatType.W, FloatType.p] at * <;> norm_num at * <;> split_ifs <;> omega
  refine ⟨f / 2 ^ (T.W - T.p) + (if rd.value then 1 else 0), rd.isAccurate,
    hq.2.1, hq.2.2.1, hq.2.2.2, fun e he1 he2 => ?_⟩
  rw [← hq.1]
  have hn : DiyFp.isNormalized T.W ⟨f, e⟩ = .ok true := by
    unfold DiyFp.isNormalized
    rw [assertM_true (by simpa using hf0), ok_bind]
    unfold msbValue
    simp only [pure, Except.pure, Except.ok.injEq]
    have := highestBit_eq (show 0 < T.W by omega) hf2
    unfold highestBit nthBit at this
    rw [this]; simpa using hf1
  have hno : ¬ (e ≥ T.maxExp) := by omega
  have hnu : ¬ (e + T.W < T.minExp - T.mbs) := by
    cases T <;> simp only [FloatType.W, FloatType.maxExp, FloatType.minExp, FloatType.mbs, FloatType.p] at * <;> omega
  have hdn : positivePart (T.minExp - (T.mbs : Int) - e - 1) ≤ T.W - T.p := by
    unfold positivePart
    cases T <;> simp only [FloatType.W, FloatType.maxExp, FloatType.minExp, FloatType.mbs, FloatType.p] at * <;> omega
  obtain ⟨E, hE⟩ : ∃ E : Nat, (E : Int) = e + T.W + T.maxExp - 2 := ⟨(e + T.W + T.maxExp - 2).toNat, by
    cases T <;> simp only [FloatType.W, FloatType.maxExp, FloatType.minExp] at * <;> omega⟩
  have hE2 : e + ((T.W - T.p : Nat) : Int) + T.bias - 0 = (E : Int) := by
    rw [hE]
    cases T <;> simp only [FloatType.W, FloatType.maxExp, FloatType.bias, FloatType.mbs, FloatType.p] <;> omega
  have hElt : E < 2 ^ (T.W - T.p + 1) := by
    cases T <;> simp only [FloatType.W, FloatType.maxExp, FloatType.p] at * <;> omega
  have hpow : 2 ^ T.W = 2 ^ (T.W - T.p + 1) * 2 ^ T.mbs := by cases T <;> decide
  have hlt : E * 2 ^ T.mbs < 2 ^ T.W := by
    rw [hpow]; exact Nat.mul_lt_mul_of_pos_right hElt (by positivity)
  have hEW : E < 2 ^ T.W := lt_of_le_of_lt (Nat.le_mul_of_pos_right E (by positivity)) hlt
  refine ⟨E, hE, ?_⟩
  unfold DiyFp.downsample
  rw [assertM_true (by simpa using hf0), ok_bind, hn, ok_bind, assertM_true rfl, ok_bind]
  simp only [hno, hnu, if_false]
  have hp0 : 0 < T.p := by cases T <;> decide
  rw [assertM_true (by simp; omega), ok_bind]
  rw [max_eq_right hdn, hround, ok_bind, if_neg (by omega), hE2]
  have e1 : ((E : Int) % 2 ^ T.W).toNat = E := by
    rw [show ((2 : Int) ^ T.W) = ((2 ^ T.W : Nat) : Int) by push_cast; rfl, ← Int.natCast_mod, Int.toNat_natCast, Nat.mod_eq_of_lt hEW]
  rw [e1, Nat.shiftLeft_eq, Nat.mod_eq_of_lt hlt]
  have hm : mask T.W T.mbs = 2 ^ T.mbs - 1 := by
    unfold mask; rw [if_pos (by cases T <;> decide), Nat.shiftLeft_eq, one_mul]
  rw [hm, Nat.and_two_pow_sub_one_eq_mod, or_add (Nat.mod_lt _ (by positivity))]
  rfl

/-- An exponent too large by `2 * maxExp` ends up in the sign bit. -/
theorem downsample_wrap {T : FloatType} {w : DiyFp} (hf1 : 2 ^ (T.W - 1) ≤ w.f) (hf2 : w.f < 2 ^ T.W)
    (he1 : T.maxExp + 3 - T.W ≤ w.e) (he2 : w.e < T.maxExp) {v : Nat} {st : Status} {acc : Bool}
    (hd : w.downsample T = .ok ⟨v, st, acc⟩) :
    ∃ v', DiyFp.downsample T ⟨w.f, w.e - 2 * T.maxExp⟩ = .ok ⟨v', .success, acc⟩ ∧ v' < 2 ^ (T.W - 1) ∧
      v = v' + 2 ^ (T.W - 1) ∧ st = .success := by
  obtain ⟨q, acc', -, -, -, hall⟩ := downsample_raw T w.f hf1 hf2
  have h3 : T.minExp = 3 - T.maxExp := by cases T <;> decide
  have hW : (T.W : Int) < T.maxExp := by cases T <;> decide
  have hm0 : (0 : Int) < T.W := by cases T <;> decide
  obtain ⟨E, hE, hd1⟩ := hall w.e (by omega) he2
  obtain ⟨E', hE', hd2⟩ := hall (w.e - 2 * T.maxExp) (by omega) (by omega)
  rw [show (⟨w.f, w.e⟩ : DiyFp) = w from rfl, hd] at hd1
  cases hd1
  have hqm : q % 2 ^ (T.p - 1) < 2 ^ (T.p - 1) := Nat.mod_lt _ (by positivity)
  generalize q % 2 ^ (T.p - 1) = q at hqm hd2 hd ⊢
  refine ⟨_, hd2, ?_, ?_, rfl⟩
  · clear hd hd2
    cases T <;> simp only [FloatType.W, FloatType.maxExp, FloatType.p] at * <;> norm_num at * <;> omega
  · clear hd hd2
    cases T <;> simp only [FloatType.W, FloatType.maxExp, FloatType.p] at * <;> norm_num at * <;> omega

theorem neg_add_top {T : FloatType} {v : Nat} (h : v < 2 ^ (T.W - 1)) : neg T v = v + 2 ^ (T.W - 1) := by
  unfold neg
  rw [Nat.xor_comm, add_comm]
  have h1 := Nat.two_pow_add_eq_or_of_lt h 1
  rw [mul_one] at h1
  rw [h1]
  apply Nat.eq_of_testBit_eq
  intro i
  rw [Nat.testBit_xor, Nat.testBit_or, Nat.testBit_two_pow]
  by_cases hi : T.W - 1 = i
  · subst hi
    simp [Nat.testBit_lt_two_pow h]
  · simp [hi]

/-- **C25, what is read instead.** From `4 * 2^maxExp` on, below the bound where overflow is noticed, `atof` (unless it asks
the fallback) returns, with status success, the opposite of the number divided by `2^(2*maxExp)` (`2^256`, `2^2048`), up to the
usual error: correctly rounded, or with the lost carry of C21. -/
theorem C25_wrapped (T : FloatType) (fb : Fallback) (errno : Nat) (mem : List Nat) (str : Nat) (n : Numeral)
    (h : NumeralAt mem str n) (hx1 : 2 ^ (T.maxExp + 2) ≤ n.absValue * (1 - slack T))
    (hx2 : n.absValue * (1 + slack T) < 2 ^ (T.maxExp + T.W - 1)) :
    ∃ r, atof T fb errno mem str = .ok r ∧ (Delegated T fb errno mem str r ∨
      ∃ x b v, |x - n.value| ≤ n.absValue * slack T ∧ Converted errno str n v r ∧
        RoundsTo T (-x / 2 ^ (2 * T.maxExp)) b ∧ (v = b ∨ CarryLost T (-x / 2 ^ (2 * T.maxExp)) b v)) := by
  have hs := slack_pos T
  have hs1 : slack T < 1 := by cases T <;> norm_num [slack]
  have hpos2 : (1 : ℚ) ≤ 2 ^ (T.maxExp + 2) := one_le_zpow₀ (by norm_num) (by cases T <;> decide)
  have hx0 : 0 < n.absValue := by
    by_contra hc
    have : n.absValue * (1 - slack T) ≤ 0 := mul_nonpos_of_nonpos_of_nonneg (by linarith) (by linarith)
    linarith
  have hge : n.absValue * (1 - slack T) ≤ n.absValue := by nlinarith
  have hle : n.absValue ≤ n.absValue * (1 + slack T) := by nlinarith
  rcases krosh_backward (T := T) h hx0.ne' with ⟨k1, -, -⟩ | ⟨k1, k2⟩ | ⟨w, w1, w2, w3, -, v, st, acc, w5, w6⟩
  · exfalso
    have : (10 : ℚ) ^ (T.powLo - 1 + T.digits10) ≤ 1 := zpow_le_one_of_nonpos₀ (by norm_num) (by cases T <;> decide)
    linarith
  · exfalso
    have h1 := pow_hi (T := T)
    have h3 : (0 : ℚ) < 2 ^ (T.maxExp + T.W - 1) := by positivity
    linarith
  obtain ⟨m1, m2⟩ := margin w3
  obtain ⟨z1, z2⟩ := norm_size w1 w2
  have he2 : w.e < T.maxExp := by have := exp_le_of z1 (lt_of_le_of_lt m2 hx2); omega
  have he1 : T.maxExp + 3 - T.W ≤ w.e := by have := exp_le_of (le_trans hx1 m1) z2; omega
  obtain ⟨v', d1, d2, d3, d4⟩ := downsample_wrap w1 w2 he1 he2 w5
  subst d4
  have hval : (w.f : ℚ) * 2 ^ (w.e - 2 * T.maxExp) = w.f * 2 ^ w.e / 2 ^ (2 * T.maxExp) := by
    rw [zpow_sub₀ (by norm_num), mul_div_assoc]
  obtain ⟨y1, y2⟩ := norm_size (w := ⟨w.f, w.e - 2 * T.maxExp⟩) w1 w2
  simp only at y1 y2
  have hmin : T.minExp = 3 - T.maxExp := by cases T <;> decide
  have hp0 : 0 < T.p := by cases T <;> decide
  have hWm : (T.W : Int) < T.maxExp := by cases T <;> decide
  obtain ⟨-, f1, f2⟩ := downsample_finite (w := ⟨w.f, w.e - 2 * T.maxExp⟩) w1 w2 d1
    (le_trans (zpow_le_zpow_right₀ (by norm_num) (by unfold emin; omega)) y1)
    (lt_of_lt_of_le y2 (by
      unfold overflowThreshold
      have a2 : (2 : ℚ) ^ (T.maxExp - T.p - 1) ≤ 2 ^ (T.maxExp - 1) := zpow_le_zpow_right₀ (by norm_num) (by omega)
      have a3 : (2 : ℚ) ^ T.maxExp = 2 * 2 ^ (T.maxExp - 1) := by rw [zpow_sub_one₀ (by norm_num)]; ring
      have a4 : (2 : ℚ) ^ (w.e - 2 * T.maxExp + T.W) ≤ 2 ^ (T.maxExp - 1) := zpow_le_zpow_right₀ (by norm_num) (by omega)
      linarith))
  simp only [hval] at f1
  obtain ⟨r, r1, r2, r3⟩ := atof_numeral (fb := fb) (errno := errno) h w6
  refine ⟨r, r1, ?_⟩
  cases acc with
  | false => exact Or.inl (r3 rfl)
  | true =>
    right
    obtain ⟨a, a1, a2, a3, a4⟩ := f1 rfl
    have hva : value T a ≠ 0 := by rw [Ne, value_zero_iff, absPat_of_lt a1]; exact a2
    have hconv := r2 rfl
    rw [← neg_add_top d2] at d3
    unfold Numeral.value
    cases hn : n.isNeg with
    | false =>
      rw [hn] at hconv
      subst d3
      refine ⟨w.f * 2 ^ w.e, neg T a, neg T v', w3, hconv, ?_, ?_⟩
      · rw [neg_div]
        exact identifies_roundsTo (identifies_neg a3) (by rw [value_neg (lt_posInf_lt a1)]; exact neg_ne_zero.mpr hva)
      · rcases a4 with rfl | a4
        · exact Or.inl rfl
        · rw [neg_div]; exact Or.inr (carry_neg (isFinite_of_lt a1) a4)
    | true =>
      rw [hn] at hconv
      subst d3
      refine ⟨-(w.f * 2 ^ w.e), a, v', ?_, ?_, ?_, ?_⟩
      · simp only [if_true]
        rw [← abs_neg]
        convert w3 using 2; ring
      · have : neg T (neg T v') = v' := by
          unfold neg
          rw [Nat.xor_assoc, Nat.xor_self, Nat.xor_zero]
        rw [this] at hconv
        exact hconv
      · rw [neg_neg]; exact identifies_roundsTo a3 hva
      · rw [neg_neg]; exact a4

/-- The course of a call whose overflow goes unnoticed. -/
theorem unnoticed {T : FloatType} (fb : Fallback) (errno : Nat) {mem : List Nat} {str : Nat} {n : Numeral}
    (h : NumeralAt mem str n) (hx1 : 2 ^ T.maxExp ≤ n.absValue * (1 - slack T))
    (hx2 : n.absValue * (1 + slack T) < 2 ^ (T.maxExp + T.W - 1)) :
    ∃ w : DiyFp, 2 ^ (T.W - 1) ≤ w.f ∧ w.f < 2 ^ T.W ∧ |(w.f : ℚ) * 2 ^ w.e - n.absValue| ≤ n.absValue * slack T ∧
      (n.absValue * (1 - slack T) ≤ (w.f : ℚ) * 2 ^ w.e ∧ (w.f : ℚ) * 2 ^ w.e ≤ n.absValue * (1 + slack T)) ∧
      ∃ q acc, 2 ^ (T.p - 1) ≤ q ∧ q ≤ 2 ^ T.p ∧
        (2 * q * 2 ^ (T.W - T.p) ≤ 2 * w.f + 2 ^ (T.W - T.p) ∧ 2 * w.f ≤ 2 * q * 2 ^ (T.W - T.p) + 2 ^ (T.W - T.p)) ∧
        ∃ E : Nat, (E : Int) = w.e + T.W + T.maxExp - 2 ∧ ∃ r, atof T fb errno mem str = .ok r ∧
          (acc = true → Converted errno str n (if n.isNeg then neg T (E * 2 ^ (T.p - 1) + q % 2 ^ (T.p - 1))
            else E * 2 ^ (T.p - 1) + q % 2 ^ (T.p - 1)) r) ∧
          (acc = false → Delegated T fb errno mem str r) := by
  have hs := slack_pos T
  have hs1 : slack T < 1 := by cases T <;> norm_num [slack]
  have hpos2 : (1 : ℚ) ≤ 2 ^ T.maxExp := one_le_zpow₀ (by norm_num) (by cases T <;> decide)
  have hx0 : 0 < n.absValue := by
    by_contra hc
    have : n.absValue * (1 - slack T) ≤ 0 := mul_nonpos_of_nonpos_of_nonneg (by linarith) (by linarith)
    linarith
  have hge : n.absValue * (1 - slack T) ≤ n.absValue := by nlinarith
  have hle : n.absValue ≤ n.absValue * (1 + slack T) := by nlinarith
  rcases krosh_backward (T := T) h hx0.ne' with ⟨k1, -, -⟩ | ⟨k1, k2⟩ | ⟨w, w1, w2, w3, -, v, st, acc, w5, w6⟩
  · exfalso
    have : (10 : ℚ) ^ (T.powLo - 1 + T.digits10) ≤ 1 := zpow_le_one_of_nonpos₀ (by norm_num) (by cases T <;> decide)
    linarith
  · exfalso
    have h1 := pow_hi (T := T)
    have h3 : (0 : ℚ) < 2 ^ (T.maxExp + T.W - 1) := by positivity
    linarith
  obtain ⟨m1, m2⟩ := margin w3
  obtain ⟨z1, z2⟩ := norm_size w1 w2
  have he2 : w.e < T.maxExp := by have := exp_le_of z1 (lt_of_le_of_lt m2 hx2); omega
  have he1 : T.maxExp + 1 - T.W ≤ w.e := by have := exp_le_of (le_trans hx1 m1) z2; omega
  obtain ⟨q, acc', q1, q2, q3, hall⟩ := downsample_raw T w.f w1 w2
  have h3 : T.minExp = 3 - T.maxExp := by cases T <;> decide
  have hW : (T.W : Int) < T.maxExp := by cases T <;> decide
  obtain ⟨E, hE, hd⟩ := hall w.e (by omega) he2
  rw [show (⟨w.f, w.e⟩ : DiyFp) = w from rfl, w5] at hd
  cases hd
  obtain ⟨r, r1, r2, r3⟩ := atof_numeral (fb := fb) (errno := errno) h w6
  exact ⟨w, w1, w2, w3, ⟨m1, m2⟩, q, acc, q1, q2, q3, E, hE, r, r1, r2, r3⟩

/-- **C25, NaN.** From `2^maxExp` to `2 * 2^maxExp`, except near the ends, where infinity is read, every numeral is read as NaN
of its sign with status success, unless the fallback is asked. -/
theorem C25_nan (T : FloatType) (fb : Fallback) (errno : Nat) (mem : List Nat) (str : Nat) (n : Numeral)
    (h : NumeralAt mem str n) (hx1 : 2 ^ T.maxExp * (1 + 1 / 2 ^ (T.p - 1)) ≤ n.absValue * (1 - slack T))
    (hx2 : n.absValue * (1 + slack T) < 2 ^ (T.maxExp + 1) * (1 - 1 / 2 ^ (T.p + 1))) :
    ∃ r, atof T fb errno mem str = .ok r ∧ (Delegated T fb errno mem str r ∨
      ∃ v, Converted errno str n v r ∧ IsNaN T v ∧ (signBit T v = 1 ↔ n.isNeg = true)) := by
  have hp2 : (0 : ℚ) < 2 ^ T.maxExp := by positivity
  have hq1 : (0 : ℚ) < 1 / 2 ^ (T.p - 1) := by positivity
  have hq2 : (0 : ℚ) < 1 / 2 ^ (T.p + 1) := by positivity
  have hdbl : (2 : ℚ) ^ (T.maxExp + 1) = 2 * 2 ^ T.maxExp := by rw [zpow_add_one₀ (by norm_num)]; ring
  have hup : (2 : ℚ) ^ (T.maxExp + 1) ≤ 2 ^ (T.maxExp + T.W - 1) := zpow_le_zpow_right₀ (by norm_num) (by cases T <;> decide)
  obtain ⟨w, w1, w2, -, ⟨m1, m2⟩, q, acc, q1, q2, ⟨q3, q4⟩, E, hE, r, r1, r2, r3⟩ := unnoticed (T := T) fb errno h
    (by nlinarith) (by nlinarith)
  refine ⟨r, r1, ?_⟩
  cases acc with
  | false => exact Or.inl (r3 rfl)
  | true =>
    right
    refine ⟨_, r2 rfl, ?_⟩
    obtain ⟨z1, z2⟩ := norm_size w1 w2
    have he1 : T.maxExp + 1 - T.W ≤ w.e := by
      have := exp_le_of (a := T.maxExp) (x := (w.f : ℚ) * 2 ^ w.e) (by nlinarith) z2; omega
    have he2 : w.e ≤ T.maxExp + 1 - T.W := by
      have := exp_le_of (b := T.maxExp + 1) z1 (by nlinarith); omega
    have he : w.e = T.maxExp + 1 - T.W := le_antisymm he2 he1
    have hWp := W_pos T
    have hscale : (2 : ℚ) ^ T.maxExp = 2 ^ (T.W - 1) * 2 ^ w.e := by
      rw [← zpow_natCast, ← zpow_add₀ (by norm_num)]; congr 1; omega
    have hu : (0 : ℚ) < 2 ^ w.e := by positivity
    have f1 : 2 ^ (T.W - 1) + 2 ^ (T.W - T.p) ≤ w.f := by
      have := le_trans hx1 m1
      rw [hscale, show (2 : ℚ) ^ (T.W - 1) * 2 ^ w.e * (1 + 1 / 2 ^ (T.p - 1)) =
        (2 ^ (T.W - 1) * (1 + 1 / 2 ^ (T.p - 1))) * 2 ^ w.e by ring] at this
      have := le_of_mul_le_mul_right this hu
      rw [show (2 : ℚ) ^ (T.W - 1) * (1 + 1 / 2 ^ (T.p - 1)) = 2 ^ (T.W - 1) + 2 ^ (T.W - T.p) by
        cases T <;> norm_num [FloatType.W, FloatType.p]] at this
      exact_mod_cast this
    have f2 : w.f + 2 ^ (T.W - T.p - 1) < 2 ^ T.W := by
      have := lt_of_le_of_lt m2 hx2
      rw [hdbl, hscale, show (2 : ℚ) * (2 ^ (T.W - 1) * 2 ^ w.e) * (1 - 1 / 2 ^ (T.p + 1)) =
        (2 * 2 ^ (T.W - 1) * (1 - 1 / 2 ^ (T.p + 1))) * 2 ^ w.e by ring] at this
      have := lt_of_mul_lt_mul_right this hu.le
      rw [show (2 : ℚ) * 2 ^ (T.W - 1) * (1 - 1 / 2 ^ (T.p + 1)) = 2 ^ T.W - 2 ^ (T.W - T.p - 1) by
        cases T <;> norm_num [FloatType.W, FloatType.p], lt_sub_iff_add_lt] at this
      exact_mod_cast this
    have hEe : E = expMax T := by
      have hmax : (expMax T : Int) = 2 * T.maxExp - 1 := by cases T <;> decide
      omega
    have hv : E * 2 ^ (T.p - 1) + q % 2 ^ (T.p - 1) < 2 ^ T.W ∧
        IsNaN T (E * 2 ^ (T.p - 1) + q % 2 ^ (T.p - 1)) ∧ signBit T (E * 2 ^ (T.p - 1) + q % 2 ^ (T.p - 1)) = 0 := by
      subst hEe
      clear * - q1 q2 q3 q4 f1 f2
      cases T <;> simp only [IsNaN, expField, fracField, signBit, expMax, FloatType.W, FloatType.p] at * <;> norm_num at * <;> omega
    generalize E * 2 ^ (T.p - 1) + q % 2 ^ (T.p - 1) = v at hv
    obtain ⟨v1, v2, v3⟩ := hv
    cases n.isNeg with
    | false => simp [v2, v3]
    | true =>
      obtain ⟨s1, s2, s3⟩ := signBit_neg v1
      simp only [if_true, s1, v3]
      refine ⟨⟨s3, ?_, ?_⟩, by simp⟩
      · rw [expField_eq, s2, ← expField_eq]; exact v2.2.1
      · rw [fracField_eq, s2, ← fracField_eq]; exact v2.2.2

/-- **C25, the next octave.** From `2 * 2^maxExp` to `4 * 2^maxExp` a subnormal number of the opposite sign (or a zero of it) is
read: the distance to `2 * 2^maxExp`, divided by `2^(2*maxExp-1)` and rounded to the subnormal grid; zero in place of the least
normal number at the end of the octave. -/
theorem C25_wrapped_subnormal (T : FloatType) (fb : Fallback) (errno : Nat) (mem : List Nat) (str : Nat) (n : Numeral)
    (h : NumeralAt mem str n) (hx1 : 2 ^ (T.maxExp + 1) ≤ n.absValue * (1 - slack T))
    (hx2 : n.absValue * (1 + slack T) < 2 ^ (T.maxExp + 2)) :
    ∃ r, atof T fb errno mem str = .ok r ∧ (Delegated T fb errno mem str r ∨
      ∃ x v, |x - n.absValue| ≤ n.absValue * slack T ∧ Converted errno str n v r ∧ IsFinite T v ∧
        (signBit T v = 1 ↔ n.isNeg = false) ∧
        (|(|value T v| - (x - 2 ^ (T.maxExp + 1)) / 2 ^ (2 * T.maxExp - 1))| ≤ 2 ^ emin T / 2 ∨
          (2 ^ (T.maxExp + 2) * (1 - 1 / 2 ^ (T.p + 1)) ≤ x ∧ value T v = 0))) := by
  have hup : (2 : ℚ) ^ (T.maxExp + 2) ≤ 2 ^ (T.maxExp + T.W - 1) := zpow_le_zpow_right₀ (by norm_num) (by cases T <;> decide)
  have hdn : (2 : ℚ) ^ T.maxExp ≤ 2 ^ (T.maxExp + 1) := zpow_le_zpow_right₀ (by norm_num) (by omega)
  obtain ⟨w, w1, w2, w3, ⟨m1, m2⟩, q, acc, q1, q2, ⟨q3, q4⟩, E, hE, r, r1, r2, r3⟩ := unnoticed (T := T) fb errno h
    (by linarith) (by linarith)
  refine ⟨r, r1, ?_⟩
  cases acc with
  | false => exact Or.inl (r3 rfl)
  | true =>
    right
    refine ⟨w.f * 2 ^ w.e, _, w3, r2 rfl, ?_⟩
    obtain ⟨z1, z2⟩ := norm_size w1 w2
    have he1 : T.maxExp + 2 - T.W ≤ w.e := by have := exp_le_of (le_trans hx1 m1) z2; omega
    have he2 : w.e ≤ T.maxExp + 2 - T.W := by have := exp_le_of z1 (lt_of_le_of_lt m2 hx2); omega
    have he : w.e = T.maxExp + 2 - T.W := le_antisymm he2 he1
    have hWp := W_pos T
    have hEe : E = expMax T + 1 := by
      have hmax : (expMax T : Int) = 2 * T.maxExp - 1 := by cases T <;> decide
      omega
    have hqm : q % 2 ^ (T.p - 1) < 2 ^ (T.p - 1) := Nat.mod_lt _ (by positivity)
    have hv : E * 2 ^ (T.p - 1) + q % 2 ^ (T.p - 1) < 2 ^ T.W ∧
        IsFinite T (E * 2 ^ (T.p - 1) + q % 2 ^ (T.p - 1)) ∧ signBit T (E * 2 ^ (T.p - 1) + q % 2 ^ (T.p - 1)) = 1 ∧
        expField T (E * 2 ^ (T.p - 1) + q % 2 ^ (T.p - 1)) = 0 ∧
        fracField T (E * 2 ^ (T.p - 1) + q % 2 ^ (T.p - 1)) = q % 2 ^ (T.p - 1) := by
      subst hEe
      clear * - hqm
      generalize q % 2 ^ (T.p - 1) = q at *
      cases T <;> simp only [IsFinite, expField, fracField, signBit, expMax, FloatType.W, FloatType.p] at * <;> norm_num at * <;> omega
    generalize E * 2 ^ (T.p - 1) + q % 2 ^ (T.p - 1) = v at hv
    obtain ⟨v1, v2, v3, v4, v5⟩ := hv
    have hval : value T v = -((q % 2 ^ (T.p - 1) : Nat) * 2 ^ emin T) := by
      unfold value mag
      rw [if_pos v3, if_pos v4, v5]
    have key : |(((q % 2 ^ (T.p - 1) : Nat) : ℚ) * 2 ^ emin T - ((w.f : ℚ) * 2 ^ w.e - 2 ^ (T.maxExp + 1)) / 2 ^ (2 * T.maxExp - 1))|
          ≤ 2 ^ emin T / 2 ∨
        (2 ^ (T.maxExp + 2) * (1 - 1 / 2 ^ (T.p + 1)) ≤ (w.f : ℚ) * 2 ^ w.e ∧ q % 2 ^ (T.p - 1) = 0) := by
      have hu : (0 : ℚ) < 2 ^ w.e := by positivity
      rcases eq_or_lt_of_le q2 with hq | hq
      · right
        have hz : q % 2 ^ (T.p - 1) = 0 := by rw [hq]; cases T <;> decide
        refine ⟨?_, hz⟩
        have hscale : (2 : ℚ) ^ (T.maxExp + 2) = 2 ^ T.W * 2 ^ w.e := by
          rw [← zpow_natCast, ← zpow_add₀ (by norm_num)]; congr 1; omega
        rw [hscale, mul_right_comm]
        apply mul_le_mul_of_nonneg_right _ hu.le
        have : 2 ^ T.W ≤ w.f + 2 ^ (T.W - T.p - 1) := by
          subst hq
          clear * - q3
          cases T <;> simp only [FloatType.W, FloatType.p] at * <;> norm_num at * <;> omega
        have h2 : (2 : ℚ) ^ T.W ≤ w.f + 2 ^ (T.W - T.p - 1) := by exact_mod_cast this
        have h3 : (2 : ℚ) ^ T.W * (1 - 1 / 2 ^ (T.p + 1)) = 2 ^ T.W - 2 ^ (T.W - T.p - 1) := by
          cases T <;> norm_num [FloatType.W, FloatType.p]
        rw [h3]; linarith
      · left
        have hq' : q % 2 ^ (T.p - 1) = q - 2 ^ (T.p - 1) := by
          clear * - q1 hq
          cases T <;> simp only [FloatType.p] at * <;> norm_num at * <;> omega
        have hqc : ((q % 2 ^ (T.p - 1) : Nat) : ℚ) = q - 2 ^ (T.p - 1) := by
          rw [hq']; push_cast [q1]; ring
        have hscale : (2 : ℚ) ^ (T.maxExp + 1) = 2 ^ (T.W - 1) * 2 ^ w.e := by
          rw [← zpow_natCast, ← zpow_add₀ (by norm_num)]; congr 1; omega
        have hsc2 : (2 : ℚ) ^ w.e / 2 ^ (2 * T.maxExp - 1) = 2 ^ emin T / 2 ^ (T.W - T.p) := by
          rw [← zpow_natCast, ← zpow_sub₀ (by norm_num), ← zpow_sub₀ (by norm_num)]; congr 1
          rw [he]; cases T <;> simp only [emin, FloatType.W, FloatType.p, FloatType.maxExp, FloatType.minExp] <;> norm_num
        rw [hqc, hscale, ← sub_mul, mul_div_assoc, hsc2, mul_div_assoc', mul_comm _ ((2 : ℚ) ^ emin T), mul_comm _ ((2 : ℚ) ^ emin T),
          mul_div_assoc, ← mul_sub, abs_mul, abs_of_pos (emin_pos T)]
        have a1 : (2 : ℚ) * q * 2 ^ (T.W - T.p) ≤ 2 * w.f + 2 ^ (T.W - T.p) := by exact_mod_cast q3
        have a2 : (2 : ℚ) * w.f ≤ 2 * q * 2 ^ (T.W - T.p) + 2 ^ (T.W - T.p) := by exact_mod_cast q4
        have hh : |(q : ℚ) - 2 ^ (T.p - 1) - (w.f - 2 ^ (T.W - 1)) / 2 ^ (T.W - T.p)| ≤ 1 / 2 := by
          clear * - a1 a2
          rw [abs_le]
          cases T <;> simp only [FloatType.W, FloatType.p] at * <;> norm_num at * <;> constructor <;> linarith
        have := mul_le_mul_of_nonneg_left hh (emin_pos T).le
        linarith
    have hfin : |value T v| = ((q % 2 ^ (T.p - 1) : Nat) : ℚ) * 2 ^ emin T := by
      rw [hval, abs_neg, abs_of_nonneg (by have := emin_pos T; positivity)]
    have hz0 : q % 2 ^ (T.p - 1) = 0 → value T v = 0 := fun hz => by rw [hval, hz]; simp
    cases n.isNeg with
    | false =>
      refine ⟨v2, by simpa using v3, ?_⟩
      rw [if_neg (by decide), hfin]
      exact key.imp id (fun ⟨a, b⟩ => ⟨a, hz0 b⟩)
    | true =>
      refine ⟨by simpa using isFinite_neg v2, ?_, ?_⟩
      · rw [if_pos rfl, (signBit_neg v1).1, v3]; simp
      · rw [if_pos rfl, value_neg v1, abs_neg, hfin]
        exact key.imp id (fun ⟨a, b⟩ => ⟨a, by rw [hz0 b, neg_zero]⟩)

/-- "-1e40" -/
def m1e40 : Numeral := ⟨some true, [1], none, some ⟨false, none, [4, 0]⟩⟩

theorem m1e40_at : NumeralAt (m1e40.text ++ [0]) 0 m1e40 :=
  numeralAt_cstr ⟨by decide, by intro e he; cases he; decide⟩ (by decide)
    (by intro e he; cases he; exact ⟨by decide, readable_of_lt (by decide)⟩)

theorem m1e40_abs : m1e40.absValue = 10 ^ 40 := by
  norm_num [m1e40, Numeral.absValue, Numeral.fracDigits, Numeral.expValue, ExpPart.value, digitsVal]
  decide

/-- The hypotheses of `C25_wrapped` are met by "-1e40" as float, which is read as about `10^40 / 2^256`. -/
example (fb : Fallback) := C25_wrapped .float fb 0 _ 0 m1e40 m1e40_at
  (by rw [m1e40_abs]; norm_num [FloatType.maxExp, slack])
  (by rw [m1e40_abs]; norm_num [FloatType.maxExp, FloatType.W, slack])

/-- "-5e38" -/
def m5e38 : Numeral := ⟨some true, [5], none, some ⟨false, none, [3, 8]⟩⟩

theorem m5e38_at : NumeralAt (m5e38.text ++ [0]) 0 m5e38 :=
  numeralAt_cstr ⟨by decide, by intro e he; cases he; decide⟩ (by decide)
    (by intro e he; cases he; exact ⟨by decide, readable_of_lt (by decide)⟩)

theorem m5e38_abs : m5e38.absValue = 5 * 10 ^ 38 := by
  norm_num [m5e38, Numeral.absValue, Numeral.fracDigits, Numeral.expValue, ExpPart.value, digitsVal]
  decide

/-- The hypotheses of `C25_nan` are met by "-5e38" as float. -/
example (fb : Fallback) := C25_nan .float fb 0 _ 0 m5e38 m5e38_at
  (by rw [m5e38_abs]; norm_num [FloatType.maxExp, FloatType.p, slack])
  (by rw [m5e38_abs]; norm_num [FloatType.maxExp, FloatType.p, slack])

/-- "1e39" -/
def p1e39 : Numeral := ⟨none, [1], none, some ⟨false, none, [3, 9]⟩⟩

theorem p1e39_at : NumeralAt (p1e39.text ++ [0]) 0 p1e39 :=
  numeralAt_cstr ⟨by decide, by intro e he; cases he; decide⟩ (by decide)
    (by intro e he; cases he; exact ⟨by decide, readable_of_lt (by decide)⟩)

theorem p1e39_abs : p1e39.absValue = 10 ^ 39 := by
  norm_num [p1e39, Numeral.absValue, Numeral.fracDigits, Numeral.expValue, ExpPart.value, digitsVal]
  decide

/-- The hypotheses of `C25_wrapped_subnormal` are met by "1e39" as float. -/
example (fb : Fallback) := C25_wrapped_subnormal .float fb 0 _ 0 p1e39 p1e39_at
  (by rw [p1e39_abs]; norm_num [FloatType.maxExp, slack])
  (by rw [p1e39_abs]; norm_num [FloatType.maxExp, slack])

end Floaxie
