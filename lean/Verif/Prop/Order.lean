import Verif.Prop.Errors
import Verif.Prop.Narrow
import Verif.Prop.LateDigits

/-!
# C77: order of numerals of any length
-/

namespace Floaxie

open Spec FloatType

/-- The least normal number: what is rounded up to it. -/
theorem pow2_near_min {T : FloatType} {x : ℚ} {b : Nat} (h : RoundsTo T x b) (hv : value T b = 2 ^ (T.minExp - 1))
    (hlt : x < 2 ^ (T.minExp - 1)) : (2 ^ (T.minExp - 1) - x) * 2 ^ T.p ≤ 2 ^ (T.minExp - 1) := by
  have hc : 2 ^ (T.p - 1) - 1 < posInf T := by cases T <;> decide
  have hN : N T (2 ^ (T.p - 1) - 1) = 2 ^ (T.p - 1) - 1 := by cases T <;> decide
  have hn := roundsTo_le h (isFinite_of_lt hc)
  rw [value_of_lt hc, hN, hv] at hn
  have hm : (2 : ℚ) ^ (T.minExp - 1) = 2 ^ (T.p - 1) * 2 ^ emin T := by
    rw [← zpow_natCast, ← zpow_add₀ (by norm_num)]
    congr 1; unfold emin; cases T <;> decide
  have hp : (2 : ℚ) ^ T.p = 2 * 2 ^ (T.p - 1) := by cases T <;> norm_num [FloatType.p]
  have hcast : ((2 ^ (T.p - 1) - 1 : Nat) : ℚ) = 2 ^ (T.p - 1) - 1 := by
    rw [Nat.cast_sub (Nat.one_le_two_pow)]; push_cast; ring
  rw [hcast] at hn
  have hu := emin_pos T
  have hP : (1 : ℚ) ≤ 2 ^ (T.p - 1) := one_le_pow₀ (by norm_num)
  rw [hp, hm]
  rw [hm] at hn hlt
  generalize (2 : ℚ) ^ emin T = u at *
  generalize (2 : ℚ) ^ (T.p - 1) = P at *
  have h2 : 2 * (P * u - x) ≤ u := by
    rw [abs_of_neg (by linarith)] at hn
    rcases abs_cases (x - (P - 1) * u) with ⟨q1, -⟩ | ⟨q1, -⟩ <;> rw [q1] at hn <;> nlinarith
  nlinarith

/-- No carry is lost away from the powers of two. -/
theorem no_carry {T : FloatType} {X y : ℚ} {b v : Nat} (hX : 0 < X) (hy : |(|y|) - X| ≤ X * slack T) (hc : ClearOfPow2 T X)
    (hr : RoundsTo T y b) (hl : CarryLost T y b v) : False := by
  obtain ⟨-, -, j, j1, j2, j3, -⟩ := hl
  have hs := slack_pos T
  have hs1 : slack T < 1 := by cases T <;> norm_num [slack]
  have hy' := abs_le.mp hy
  have hy0 : y ≠ 0 := by
    intro h0
    rw [h0, abs_zero] at hy'
    nlinarith [hy'.1]
  obtain ⟨c, c1, c2⟩ := roundsTo_abs hy0 hr
  have hcv : value T c = 2 ^ j := by
    have h1 : |value T c| = 2 ^ j := by
      rw [← j2, c2]; split_ifs
      · rw [abs_neg]
      · rfl
    rwa [abs_of_nonneg (by rw [roundsTo_pos (abs_nonneg y) c1]; have := emin_pos T; positivity)] at h1
  have hnear : (2 ^ j - |y|) * 2 ^ T.p ≤ 2 ^ j := by
    by_cases hj : j = T.minExp - 1
    · subst hj
      exact pow2_near_min c1 hcv j3
    · have h1 := pow2_near c1 (abs_nonneg y) hcv (by omega) j3
      rw [pow_succ] at h1
      have h2 : 0 ≤ (2 ^ j - |y|) * 2 ^ T.p := mul_nonneg (by linarith) (by positivity)
      nlinarith
  have hj0 : (0 : ℚ) < 2 ^ j := by positivity
  rcases hc j with h | h
  · nlinarith [hy'.1]
  · have hP : (0 : ℚ) < 2 ^ T.p := by positivity
    have hPs : (1 + slack T) * (2 ^ T.p * 2 ^ T.p) ≤ (2 ^ T.p + 2) * (2 ^ T.p - 1) := by
      cases T <;> norm_num [slack, FloatType.p]
    have hP1 : (1 : ℚ) < 2 ^ T.p := by cases T <;> norm_num [FloatType.p]
    have h1 : X * (2 ^ T.p + 2) < 2 ^ j * 2 ^ T.p := by
      have := mul_lt_mul_of_pos_right h hP
      rwa [mul_assoc, add_mul, div_mul_cancel₀ _ hP.ne', one_mul] at this
    generalize (2 : ℚ) ^ T.p = P at *
    generalize (2 : ℚ) ^ j = J at *
    have h2 : |y| ≤ X * (1 + slack T) := by linarith [hy'.2]
    have h3 : J * (P - 1) ≤ X * (1 + slack T) * P := by nlinarith
    have h4 : X * (P + 2) * (P - 1) < J * P * (P - 1) := mul_lt_mul_of_pos_right h1 (by linarith)
    have h5 := mul_le_mul_of_nonneg_left hPs hX.le
    have h6 := mul_le_mul_of_nonneg_right h3 hP.le
    nlinarith

/-- The numeral `n`, of any length, is read at `str` of `mem`: in the finite range
with a small margin (`float`: not below 10^-42), not just below a power of two; the
fallback, if it is asked, reads it correctly. -/
structure ReadAny (T : FloatType) (fb : Fallback) (errno : Nat) (mem : List Nat) (str : Nat) (n : Numeral) : Prop where
  text : NumeralAt mem str n
  notTiny : 2 ^ emin T ≤ n.absValue * (1 - slack T)
  notHuge : n.absValue * (1 + slack T) < overflowThreshold T
  notTinyFloat : T = .float → 10 ^ (-42 : Int) ≤ n.absValue
  clear : ClearOfPow2 T n.absValue
  fallback : FallbackReads T fb errno mem str n

theorem ReadAny.pos {T : FloatType} {fb : Fallback} {errno : Nat} {mem : List Nat} {str : Nat} {n : Numeral}
    (h : ReadAny T fb errno mem str n) : 0 < n.absValue := by
  have hs1 : slack T < 1 := by cases T <;> norm_num [slack]
  have hu := emin_pos T
  have := h.notTiny
  by_contra hc
  have : n.absValue * (1 - slack T) ≤ 0 := mul_nonpos_of_nonpos_of_nonneg (by linarith) (by linarith)
  linarith

/-- What is read. -/
theorem ReadAny.rounds {T : FloatType} {fb : Fallback} {errno : Nat} {mem : List Nat} {str : Nat} {n : Numeral}
    (h : ReadAny T fb errno mem str n) :
    ∃ r x, atof T fb errno mem str = .ok r ∧ r.status = .success ∧ r.strEnd = str + n.text.length ∧
      |x - n.value| ≤ n.absValue * slack T ∧ RoundsTo T x r.value ∧
      ∀ b', IsFinite T b' → ¬ (n.value ≤ value T b' ∧ value T b' < value T r.value) ∧
          ¬ (value T r.value < value T b' ∧ value T b' ≤ n.value) := by
  have hs := slack_pos T
  have hX := h.pos
  have hnc : ∀ {x : ℚ} {b v : Nat}, |x - n.value| ≤ n.absValue * slack T → RoundsTo T x b → ¬ CarryLost T x b v := by
    intro x b v hx hr hl
    refine no_carry hX ?_ h.clear hr hl
    have h1 := abs_abs_sub_abs_le_abs_sub x n.value
    rw [abs_value_num] at h1
    linarith
  obtain ⟨r, r1, r2⟩ := C23_backward T fb errno mem str n h.text h.notTiny h.notHuge h.notTinyFloat
  obtain ⟨r', q1, q2⟩ := C23_neighbour T fb errno mem str n h.text h.notTiny h.notHuge h.notTinyFloat
  obtain rfl : r = r' := by rw [r1] at q1; exact Except.ok.inj q1
  rcases r2 with ⟨⟨d0, d1, d2, d3, d4⟩, -⟩ | ⟨x, b, v, x1, x2, rfl, x4⟩
  · obtain ⟨f1, f2, f3⟩ := h.fallback r r1 d0
    rw [d3, if_pos f3] at d4
    rw [← d1] at f1
    refine ⟨r, n.value, r1, d4, by rw [d2, f2], by rw [sub_self, abs_zero]; positivity, f1, fun b' hb' => ?_⟩
    have hle := roundsTo_le f1 hb'
    constructor
    · rintro ⟨k1, k2⟩
      rw [abs_of_nonpos (by linarith), abs_of_nonpos (by linarith)] at hle
      linarith
    · rintro ⟨k1, k2⟩
      rw [abs_of_nonneg (by linarith), abs_of_nonneg (by linarith)] at hle
      linarith
  · rcases x4 with rfl | x4
    · refine ⟨_, x, r1, rfl, rfl, x1, x2, ?_⟩
      rcases q2 rfl with q2 | ⟨y, b, y1, y2, y3⟩
      · exact q2
      · exact absurd y3 (hnc y1 y2)
    · exact absurd x4 (hnc x1 x2)

/-- **C77.** Two numerals of any length, read anywhere in any memory, with any number of
digits and any spelling, under the conditions above (`ReadAny`):
* if the first is at most the second, there is no finite value above what the second and
  below what the first is read as: if the order is reversed, the results are adjacent;
* if moreover a finite value lies between the numbers (or is one of them), or the numbers
  differ by more than `slack` relatively, the order is preserved. -/
theorem C77_order (T : FloatType) (fb fb' : Fallback) (errno errno' : Nat) (mem mem' : List Nat) (str str' : Nat) (n n' : Numeral)
    (h : ReadAny T fb errno mem str n) (h' : ReadAny T fb' errno' mem' str' n') (hle : n.value ≤ n'.value) :
    ∃ r r', atof T fb errno mem str = .ok r ∧ atof T fb' errno' mem' str' = .ok r' ∧ r.status = .success ∧ r'.status = .success ∧
      (∀ b, IsFinite T b → ¬ (value T r'.value < value T b ∧ value T b < value T r.value)) ∧
      (∀ b, IsFinite T b → n.value ≤ value T b → value T b ≤ n'.value → value T r.value ≤ value T b ∧ value T b ≤ value T r'.value) ∧
      (n.value + (n.absValue + n'.absValue) * slack T ≤ n'.value → value T r.value ≤ value T r'.value) := by
  obtain ⟨r, x, r1, r2, -, r4, r5, r6⟩ := h.rounds
  obtain ⟨r', x', r1', r2', -, r4', r5', r6'⟩ := h'.rounds
  refine ⟨r, r', r1, r1', r2, r2', fun b hb => ?_, fun b hb h1 h2 => ?_, fun hsep => ?_⟩
  · rintro ⟨k1, k2⟩
    rcases le_or_gt n.value (value T b) with hc | hc
    · exact (r6 b hb).1 ⟨hc, k2⟩
    · exact (r6' b hb).2 ⟨k1, by linarith⟩
  · exact ⟨not_lt.mp fun hc => (r6 b hb).1 ⟨h1, hc⟩, not_lt.mp fun hc => (r6' b hb).2 ⟨hc, h2⟩⟩
  · refine roundsTo_mono r5 r5' ?_
    have h1 := (abs_le.mp r4).2
    have h2 := (abs_le.mp r4').1
    linarith

theorem clearOfPow2_of {T : FloatType} {x : ℚ} (j : Int) (h1 : 2 ^ j ≤ x * (1 - slack T)) (h2 : x * (1 + 2 / 2 ^ T.p) < 2 ^ (j + 1)) :
    ClearOfPow2 T x := by
  intro i
  rcases le_or_gt i j with hi | hi
  · exact Or.inl (le_trans (zpow_le_zpow_right₀ (by norm_num) hi) h1)
  · exact Or.inr (lt_of_lt_of_le h2 (zpow_le_zpow_right₀ (by norm_num) (by omega)))

theorem spell_abs : spellC.absValue = 101963678189 / 10 ^ 5 ∧ spellA.absValue = 10196367819 / 10 ^ 4 := by
  constructor <;>
    norm_num [spellA, spellC, Numeral.absValue, Numeral.fracDigits, Numeral.expValue, ExpPart.value, digitsVal]

/-- The conditions are met by "101963678189e-5" and "1019636781.9e-3" as `float`, with any
fallback - the pair whose order is reversed (C50). -/
theorem C77_conditions (fb : Fallback) : ReadAny .float fb 0 (spellC.text ++ [0]) 0 spellC ∧
    ReadAny .float fb 0 (spellA.text ++ [0]) 0 spellA ∧ spellC.value ≤ spellA.value := by
  obtain ⟨k1, -, k3, -⟩ := spell_krosh
  obtain ⟨a1, a2⟩ := spell_abs
  refine ⟨⟨?_, ?_, ?_, fun _ => ?_, clearOfPow2_of 19 ?_ ?_, fun r h1 h2 => ?_⟩,
    ⟨?_, ?_, ?_, fun _ => ?_, clearOfPow2_of 19 ?_ ?_, fun r h1 h2 => ?_⟩, spell_values.2.1.le⟩
  · exact numeralAt_cstr ⟨by decide, by intro e he; cases he; decide⟩ (by decide)
      (by intro e he; cases he; exact ⟨by decide, readable_of_lt (by decide)⟩)
  · rw [a1]; norm_num [emin, FloatType.minExp, FloatType.p, slack]
  · rw [a1]; norm_num [overflowThreshold, FloatType.maxExp, FloatType.p, slack]
  · rw [a1]; norm_num
  · rw [a1]; norm_num [slack]
  · rw [a1]; norm_num [FloatType.p]
  · rw [atof_of_krosh k3 (by decide), Except.ok.injEq] at h1
    rw [← h1] at h2; cases h2
  · exact numeralAt_cstr ⟨by decide, by intro e he; cases he; decide⟩ (by decide)
      (by intro e he; cases he; exact ⟨by decide, readable_of_lt (by decide)⟩)
  · rw [a2]; norm_num [emin, FloatType.minExp, FloatType.p, slack]
  · rw [a2]; norm_num [overflowThreshold, FloatType.maxExp, FloatType.p, slack]
  · rw [a2]; norm_num
  · rw [a2]; norm_num [slack]
  · rw [a2]; norm_num [FloatType.p]
  · rw [atof_of_krosh k1 (by decide), Except.ok.injEq] at h1
    rw [← h1] at h2; cases h2

end Floaxie
