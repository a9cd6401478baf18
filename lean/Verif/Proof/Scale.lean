import Verif.Proof.Reads
import Verif.Proof.Tables
import Verif.Proof.DiyFp
import Verif.Proof.IeeeMore

/-! # From the digits to the scaled extended precision number -/

namespace Floaxie

open Spec FloatType

theorem convert_check : (List.range 10000).all (fun x =>
    decide (convertNumerator 4 7 x < 128 ∧ convertNumerator 4 7 x * 10000 ≤ 128 * x + 112 ∧
      128 * x ≤ convertNumerator 4 7 x * 10000 + 9872)) = true := by decide +kernel

theorem convert_bounds {x : Nat} (h : x < 10000) : convertNumerator 4 7 x < 128 ∧
    convertNumerator 4 7 x * 10000 ≤ 128 * x + 112 ∧ 128 * x ≤ convertNumerator 4 7 x * 10000 + 9872 := by
  have := List.all_eq_true.mp convert_check x (List.mem_range.mpr h)
  exact of_decide_eq_true this

/-- Error of the fraction against the exact tail. -/
theorem frac_err {t : ℚ} {tv frac : Nat} (h1 : tv < 10 ^ 4) (h2 : |t - tv / 10 ^ 4| < 1 / 10)
    (h3 : frac = convertNumerator 4 7 tv % 256) : frac < 128 ∧ |(frac : ℚ) / 128 - t| < 11 / 100 := by
  obtain ⟨b1, b2, b3⟩ := convert_bounds (x := tv) (by omega)
  rw [Nat.mod_eq_of_lt (by omega)] at h3
  rw [← h3] at b1 b2 b3
  refine ⟨b1, ?_⟩
  have c2 : (frac : ℚ) * 10000 ≤ 128 * tv + 112 := by exact_mod_cast b2
  have c3 : 128 * (tv : ℚ) ≤ frac * 10000 + 9872 := by exact_mod_cast b3
  rw [abs_lt] at h2 ⊢
  constructor <;> linarith [h2.1, h2.2]

/-- Number of bits `normalize` shifts a full mantissa at most. -/
def maxShift : FloatType → Nat
  | .float => 5
  | .double => 4

theorem adjust_zero {T : FloatType} {P : Nat} (h0 : P ≠ 0) (h : P < 2 ^ T.W) :
    ∃ w, adjustMantissa T P 0 = .ok w ∧ 2 ^ (T.W - 1) ≤ w.f ∧ w.f < 2 ^ T.W ∧
      (w.f : ℚ) * 2 ^ w.e = P ∧ -(T.W : Int) < w.e ∧ w.e ≤ 0 ∧
      (10 ^ (T.digits10 - 1) ≤ P → -(maxShift T : Int) ≤ w.e) := by
  obtain ⟨j, hj, hn, h1, h2⟩ := normalize_ok (W_pos T) ⟨P, 0⟩ h0 h
  refine ⟨⟨P * 2 ^ j, 0 - (j : Int)⟩, ?_, h1, h2, ?_, by dsimp only; omega, by dsimp only; omega, ?_⟩
  · unfold adjustMantissa
    rw [hn, ok_bind]; rfl
  · dsimp only
    rw [zero_sub, zpow_neg, zpow_natCast]; push_cast; field_simp
  · intro hP
    dsimp only at h2 ⊢
    by_contra hc
    have : maxShift T + 1 ≤ j := by omega
    have h3 := Nat.mul_le_mul hP (Nat.pow_le_pow_right (show 0 < 2 by norm_num) this)
    have h4 : 2 ^ T.W ≤ 10 ^ (T.digits10 - 1) * 2 ^ (maxShift T + 1) := by cases T <;> decide
    omega

theorem inc_norm (T : FloatType) (w : DiyFp) (h1 : 2 ^ (T.W - 1) ≤ w.f) (h : w.f < 2 ^ T.W) :
    ((w.inc T.W).f : ℚ) * 2 ^ (w.inc T.W).e = (w.f + 1) * 2 ^ w.e ∧ (w.inc T.W).f < 2 ^ T.W ∧
      2 ^ (T.W - 1) ≤ (w.inc T.W).f ∧ w.e ≤ (w.inc T.W).e ∧ (w.inc T.W).e ≤ w.e + 1 := by
  unfold DiyFp.inc
  split_ifs with h2
  · rw [Nat.mod_eq_of_lt (by omega)]
    push_cast
    exact ⟨rfl, by omega, by omega, by omega, by omega⟩
  · have hw : w.f = 2 ^ T.W - 1 := by omega
    have h3 : (w.f >>> 1 + 1) % 2 ^ T.W = 2 ^ (T.W - 1) := by
      rw [hw]; cases T <;> decide
    dsimp only
    rw [h3]
    have h4 : (w.f : ℚ) + 1 = 2 * 2 ^ (T.W - 1) := by
      have : w.f + 1 = 2 * 2 ^ (T.W - 1) := by rw [hw]; cases T <;> decide
      exact_mod_cast this
    refine ⟨?_, Nat.pow_lt_pow_right (by norm_num) (by cases T <;> decide), le_refl _, by omega, by omega⟩
    rw [h4, zpow_add₀ (by norm_num)]
    push_cast
    ring

/-- A full mantissa with a fraction. -/
theorem adjust_frac {T : FloatType} {P frac : Nat} (h0 : 10 ^ (T.digits10 - 1) ≤ P) (h : P < 2 ^ T.W)
    (hf0 : frac ≠ 0) (hf : frac < 128) :
    ∃ w, adjustMantissa T P frac = .ok w ∧ 2 ^ (T.W - 1) ≤ w.f ∧ w.f < 2 ^ T.W ∧
      |(w.f : ℚ) * 2 ^ w.e - (P + frac / 128)| ≤ 1 / 2 * 2 ^ w.e ∧ -(maxShift T : Int) ≤ w.e ∧ w.e ≤ 1 := by
  have hP0 : P ≠ 0 := by have : 0 < 10 ^ (T.digits10 - 1) := by positivity
                         omega
  obtain ⟨j, hj, hn, h1, h2⟩ := normalize_ok (W_pos T) ⟨P, 0⟩ hP0 h
  dsimp only at h1 h2
  have hjm : j ≤ maxShift T := by
    by_contra hc
    have : maxShift T + 1 ≤ j := by omega
    have h3 := Nat.mul_le_mul h0 (Nat.pow_le_pow_right (show 0 < 2 by norm_num) this)
    have h4 : 2 ^ T.W ≤ 10 ^ (T.digits10 - 1) * 2 ^ (maxShift T + 1) := by cases T <;> decide
    omega
  have hms : maxShift T ≤ 5 := by cases T <;> decide
  have hj5 : j ≤ 5 := by omega
  unfold adjustMantissa
  rw [hn, ok_bind, if_pos hf0, assertM_true (by simp [fractionBinaryDigits]; omega), ok_bind]
  have hl : ((fractionBinaryDigits : Int) + (0 - (j : Int))).toNat = 7 - j := by
    simp [fractionBinaryDigits]; omega
  dsimp only
  rw [hl, roundUp_eq (by omega) (by omega) (by omega), ok_bind]
  have hq : frac / 2 ^ (7 - j) < 2 ^ j := by
    rw [Nat.div_lt_iff_lt_mul (by positivity), ← pow_add, show j + (7 - j) = 7 by omega]; omega
  have hor : P * 2 ^ j ||| frac >>> (7 - j) = P * 2 ^ j + frac / 2 ^ (7 - j) := by
    rw [Nat.shiftRight_eq_div_pow, or_add hq]
  rw [hor]
  have hsum : P * 2 ^ j + frac / 2 ^ (7 - j) < 2 ^ T.W := by
    -- room: P*2^j is a multiple of 2^j below 2^W
    have hd : P + 1 ≤ 2 ^ (T.W - j) := by
      rw [Nat.succ_le_iff]
      have : P * 2 ^ j < 2 ^ (T.W - j) * 2 ^ j := by rw [← pow_add, Nat.sub_add_cancel hj.le]; exact h2
      exact Nat.lt_of_mul_lt_mul_right this
    have := Nat.mul_le_mul_right (2 ^ j) hd
    rw [← pow_add, Nat.sub_add_cancel hj.le, Nat.add_mul] at this
    omega
  have hpow : (2 : ℚ) ^ (7 - j) * 2 ^ j = 128 := by
    rw [← pow_add, show 7 - j + j = 7 by omega]; norm_num
  have hdm := Nat.div_add_mod frac (2 ^ (7 - j))
  have hml := Nat.mod_lt frac (show 0 < 2 ^ (7 - j) by positivity)
  have hhalf : 2 ^ (7 - j) = 2 * 2 ^ (7 - j - 1) := by
    rw [← pow_succ']; congr 1; omega
  set q := frac / 2 ^ (7 - j) with hqd
  set r := frac % 2 ^ (7 - j) with hrd
  have hA : (0 : ℚ) < 2 ^ (7 - j - 1) := by positivity
  have hB : (0 : ℚ) < 2 ^ j := by positivity
  have hhalf' : (2 : ℚ) ^ (7 - j) = 2 * 2 ^ (7 - j - 1) := by exact_mod_cast hhalf
  have hfrac : (frac : ℚ) / 128 = (q + r / 2 ^ (7 - j)) / 2 ^ j := by
    have : (frac : ℚ) = 2 ^ (7 - j) * q + r := by exact_mod_cast hdm.symm
    rw [this, ← hpow]; field_simp
  have hez : (2 : ℚ) ^ (0 - (j : Int)) = 1 / 2 ^ j := by rw [zero_sub, zpow_neg, zpow_natCast]; simp
  have hrq : (0 : ℚ) ≤ r / 2 ^ (7 - j) := by positivity
  split_ifs with hup
  · -- rounded up
    obtain ⟨i1, i2, i3, i4, i5⟩ := inc_norm T ⟨P * 2 ^ j + q, 0 - (j : Int)⟩ (le_trans h1 (Nat.le_add_right _ _)) hsum
    refine ⟨_, rfl, i3, i2, ?_, by dsimp only at i4 ⊢; omega, by dsimp only at i5 ⊢; omega⟩
    have hle : (2 : ℚ) ^ (0 - (j : Int)) ≤ 2 ^ ((⟨P * 2 ^ j + q, 0 - (j : Int)⟩ : DiyFp).inc T.W).e :=
      zpow_le_zpow_right₀ (by norm_num) i4
    refine le_trans ?_ (mul_le_mul_of_nonneg_left hle (by norm_num))
    rw [i1]
    dsimp only
    rw [hfrac, hez]
    push_cast
    have hr1 : (1 : ℚ) / 2 ≤ r / 2 ^ (7 - j) := by
      rw [div_le_div_iff₀ (by norm_num) (by positivity), hhalf']
      have : 2 ^ (7 - j - 1) ≤ r := by
        simp only [decide_eq_true_eq] at hup; omega
      have : (2 : ℚ) ^ (7 - j - 1) ≤ r := by exact_mod_cast this
      linarith
    have hr2 : (r : ℚ) / 2 ^ (7 - j) < 1 := by
      rw [div_lt_one (by positivity)]; exact_mod_cast hml
    have e : ((P : ℚ) * 2 ^ j + q + 1) * (1 / 2 ^ j) - (P + (q + r / 2 ^ (7 - j)) / 2 ^ j) =
        (1 - r / 2 ^ (7 - j)) * (1 / 2 ^ j) := by field_simp; ring
    rw [e, abs_of_nonneg (by apply mul_nonneg; linarith; positivity)]
    apply mul_le_mul_of_nonneg_right _ (by positivity)
    linarith
  · refine ⟨_, rfl, le_trans h1 (Nat.le_add_right _ _), hsum, ?_, by dsimp only; omega, by dsimp only; omega⟩
    dsimp only
    rw [hfrac, hez]
    push_cast
    have hr1 : (r : ℚ) / 2 ^ (7 - j) ≤ 1 / 2 := by
      rw [div_le_div_iff₀ (by positivity) (by norm_num), hhalf']
      have : r ≤ 2 ^ (7 - j - 1) := by
        simp only [decide_eq_true_eq] at hup; omega
      have : (r : ℚ) ≤ 2 ^ (7 - j - 1) := by exact_mod_cast this
      linarith
    have e : ((P : ℚ) * 2 ^ j + q) * (1 / 2 ^ j) - (P + (q + r / 2 ^ (7 - j)) / 2 ^ j) =
        -((r / 2 ^ (7 - j)) * (1 / 2 ^ j)) := by field_simp; ring
    rw [e, abs_neg, abs_of_nonneg (by positivity)]
    exact mul_le_mul_of_nonneg_right hr1 (by positivity)

/-- Error bound, in units of the last place of the mantissa word, made when
digits are discarded. -/
def mantErr : FloatType → ℚ
  | .float => 5
  | .double => 3

/-- The mantissa built from what was read: exact for short numbers, and always
close. -/
theorem mantissa_ok {T : FloatType} {n : Numeral} {P : Nat} {K : Int} {frac : Nat}
    (h : Reads T.digits10 n P K frac) (h0 : P ≠ 0) :
    ∃ (w : DiyFp) (Y : ℚ), adjustMantissa T P frac = .ok w ∧ 2 ^ (T.W - 1) ≤ w.f ∧ w.f < 2 ^ T.W ∧
      mantVal n = Y * 10 ^ K ∧ 0 < Y ∧ |Y - w.f * 2 ^ w.e| ≤ mantErr T * 2 ^ w.e ∧
      (Short T.digits10 (mantVal n) → Y = w.f * 2 ^ w.e) ∧ w.e ≤ 1 ∧ -(T.W : Int) ≤ w.e := by
  have hlt : P < 2 ^ T.W := lt_trans h.lt (pow_digits10 T)
  obtain ⟨t, tv, g1, g2, g3, g4, g5, g6, g7⟩ := h.approx
  have hPq : (0 : ℚ) < P := by exact_mod_cast Nat.pos_of_ne_zero h0
  obtain ⟨hf, herr⟩ := frac_err g4 g5 g6
  have hme : (0 : ℚ) ≤ mantErr T := by cases T <;> norm_num [mantErr]
  have hmsW : -(T.W : Int) ≤ -(maxShift T : Int) := by cases T <;> decide
  by_cases hfz : frac = 0
  · subst hfz
    obtain ⟨w, w1, w2, w3, w4, w5, w6, w7⟩ := adjust_zero h0 hlt
    refine ⟨w, P + t, w1, w2, w3, g1, by linarith, ?_, ?_, by omega, by omega⟩
    · have hw0 : (0 : ℚ) < 2 ^ w.e := by positivity
      rw [w4, add_sub_cancel_left, abs_of_nonneg g2]
      rcases g7 with ⟨rfl, -⟩ | g7
      · positivity
      · have h8 := w7 g7
        have hz : (2 : ℚ) ^ (-(maxShift T : Int)) ≤ 2 ^ w.e := zpow_le_zpow_right₀ (by norm_num) h8
        simp only [Nat.cast_zero, zero_div, zero_sub, abs_neg, abs_of_nonneg g2] at herr
        refine le_trans herr.le (le_trans ?_ (mul_le_mul_of_nonneg_left hz hme))
        cases T <;> norm_num [mantErr, maxShift, zpow_neg]
    · intro hs
      have := (h.short (digits10_le T).1 hs).1
      rw [g1] at this
      have h10 : (0 : ℚ) < 10 ^ K := by positivity
      rw [w4]
      exact mul_right_cancel₀ h10.ne' this
  · have hfull : 10 ^ (T.digits10 - 1) ≤ P := by
      rcases g7 with ⟨-, h, -⟩ | h
      · exact absurd h hfz
      · exact h
    obtain ⟨w, w1, w2, w3, w4, w5, w6⟩ := adjust_frac hfull hlt hfz hf
    refine ⟨w, P + t, w1, w2, w3, g1, by linarith, ?_, ?_, w6, by omega⟩
    · have hz : (2 : ℚ) ^ (-(maxShift T : Int)) ≤ 2 ^ w.e := zpow_le_zpow_right₀ (by norm_num) w5
      have hw0 : (0 : ℚ) < 2 ^ w.e := by positivity
      have e : (P : ℚ) + t - w.f * 2 ^ w.e =
          -((frac : ℚ) / 128 - t) - (w.f * 2 ^ w.e - (P + frac / 128)) := by ring
      rw [e]
      refine le_trans (abs_sub _ _) ?_
      rw [abs_neg]
      have hc : (11 : ℚ) / 100 ≤ (mantErr T - 1 / 2) * 2 ^ w.e := by
        have hme' : (0 : ℚ) ≤ mantErr T - 1 / 2 := by cases T <;> norm_num [mantErr]
        refine le_trans ?_ (mul_le_mul_of_nonneg_left hz hme')
        cases T <;> norm_num [mantErr, maxShift, zpow_neg]
      linarith
    · intro hs
      exact absurd (h.short (digits10_le T).1 hs).2.1 hfz

/-- Multiplication by the power of ten and normalization (krosh.h:584-596). -/
def scaleStep (T : FloatType) (w : DiyFp) (K : Int) : M DiyFp := do
  let w ← (if K ≠ 0 then do
      let c ← cachedPower T K
      pure (w.mul T.W c)
    else pure w : M DiyFp)
  w.normalize T.W

theorem normalize_id {T : FloatType} {w : DiyFp} (h1 : 2 ^ (T.W - 1) ≤ w.f) (h2 : w.f < 2 ^ T.W) :
    w.normalize T.W = .ok w := by
  have h0 : w.f ≠ 0 := by have : 0 < 2 ^ (T.W - 1) := by positivity
                          omega
  unfold DiyFp.normalize
  rw [assertM_true (by simpa using h0), ok_bind]
  obtain ⟨m, hm⟩ : ∃ m, T.W = m + 1 := ⟨T.W - 1, by have := W_pos T; omega⟩
  have hb := highestBit_eq (W_pos T) h2
  conv_lhs => rw [show normalizeLoop T.W T.W w = normalizeLoop T.W (m + 1) w by rw [← hm]]
  unfold normalizeLoop
  rw [hb, if_pos (by simpa using h1)]

theorem scale_ok {T : FloatType} {w : DiyFp} {K : Int} {Y ε : ℚ} (h1 : 2 ^ (T.W - 1) ≤ w.f)
    (h2 : w.f < 2 ^ T.W) (hK : K = 0 ∨ (T.powLo ≤ K ∧ K ≤ T.powHi))
    (hε : 0 ≤ ε) (hY : |Y - w.f * 2 ^ w.e| ≤ ε * 2 ^ w.e) :
    ∃ (w' : DiyFp) (y : ℚ) (j : Nat), scaleStep T w K = .ok w' ∧ 2 ^ (T.W - 1) ≤ w'.f ∧ w'.f < 2 ^ T.W ∧
      j ≤ 1 ∧ 2 ^ j ∣ w'.f ∧ Y * 10 ^ K = y * 2 ^ w'.e ∧ |y - w'.f| < (1 + ε) * 2 ^ j ∧
      (K = 0 → w' = w) := by
  have he0 : (0 : ℚ) < 2 ^ w.e := by positivity
  -- in units of the mantissa
  set y0 := Y / 2 ^ w.e with hy0
  have hYe : Y = y0 * 2 ^ w.e := by rw [hy0]; field_simp
  have hy : |y0 - w.f| ≤ ε := by
    have : Y - w.f * 2 ^ w.e = (y0 - w.f) * 2 ^ w.e := by rw [hYe]; ring
    rw [this, abs_mul, abs_of_pos he0] at hY
    exact le_of_mul_le_mul_right hY he0
  unfold scaleStep
  by_cases hK0 : K = 0
  · rw [if_neg (by simpa using hK0), pure_bind', normalize_id h1 h2]
    refine ⟨w, y0, 0, rfl, h1, h2, by norm_num, by simp, ?_, ?_, fun _ => rfl⟩
    · rw [hK0]; simpa using hYe
    · rw [pow_zero, mul_one]; linarith
  · rw [if_pos (by simpa using hK0)]
    have hK' : T.powLo ≤ K ∧ K ≤ T.powHi := by
      rcases hK with h | h
      · exact absurd h hK0
      · exact h
    obtain ⟨c, hc, c1, c2, c3⟩ := cachedPower_ok T K hK'.1 hK'.2
    rw [hc, ok_bind, pure_bind']
    have hce0 : (0 : ℚ) < 2 ^ c.e := by positivity
    set z := (10 : ℚ) ^ K / 2 ^ c.e with hz
    have h10 : (10 : ℚ) ^ K = z * 2 ^ c.e := by rw [hz]; field_simp
    have hzc : |(c.f : ℚ) - z| ≤ 1 / 2 := by
      have : (c.f : ℚ) * 2 ^ c.e - 10 ^ K = (c.f - z) * 2 ^ c.e := by rw [h10]; ring
      rw [this, abs_mul, abs_of_pos hce0] at c3
      exact le_of_mul_le_mul_right c3 hce0
    set m := w.mul T.W c with hm
    have hmf : m.f = (w.f * c.f + 2 ^ (T.W - 1)) / 2 ^ T.W := mul_f T w c h2 c2
    have hme : m.e = w.e + c.e + T.W := mul_e T.W w c
    set B : ℚ := 2 ^ T.W with hB
    have hBpos : 0 < B := by positivity
    have hWW : 2 ^ T.W = 2 * 2 ^ (T.W - 1) := by cases T <;> simp [FloatType.W]
    have hWW' : B = 2 * 2 ^ (T.W - 1) := by rw [hB]; exact_mod_cast hWW
    -- rounding of the product
    have hround : |(m.f : ℚ) - w.f * c.f / B| ≤ 1 / 2 := by
      have hdm := Nat.div_add_mod (w.f * c.f + 2 ^ (T.W - 1)) (2 ^ T.W)
      have hml := Nat.mod_lt (w.f * c.f + 2 ^ (T.W - 1)) (show 0 < 2 ^ T.W by positivity)
      rw [← hmf] at hdm
      set r := (w.f * c.f + 2 ^ (T.W - 1)) % 2 ^ T.W
      have hdm' : B * m.f + r = w.f * c.f + B / 2 := by
        have : (B : ℚ) / 2 = 2 ^ (T.W - 1) := by rw [hWW']; ring
        rw [this, hB]; exact_mod_cast hdm
      have hr0 : (0 : ℚ) ≤ r := by positivity
      have hr1 : (r : ℚ) < B := by rw [hB]; exact_mod_cast hml
      have e : (m.f : ℚ) - w.f * c.f / B = (B / 2 - r) / B := by
        field_simp
        linarith
      rw [e, abs_le]
      constructor
      · rw [le_div_iff₀ hBpos]; linarith
      · rw [div_le_iff₀ hBpos]; linarith
    have hwB : (w.f : ℚ) < B := by rw [hB]; exact_mod_cast h2
    have hcB : (c.f : ℚ) ≤ B - 1 := by
      have : c.f + 1 ≤ 2 ^ T.W := by omega
      have : (c.f : ℚ) + 1 ≤ B := by rw [hB]; exact_mod_cast this
      linarith
    have hwf0 : (0 : ℚ) ≤ w.f := by positivity
    set y1 := y0 * z / B with hy1
    have hy1m : |y1 - m.f| < 1 + ε := by
      have e : y1 - m.f = ((y0 - w.f) * z - w.f * (c.f - z)) / B - ((m.f : ℚ) - w.f * c.f / B) := by
        rw [hy1]; field_simp; ring
      have a1 : |(y0 - w.f) * z| ≤ ε * B := by
        rw [abs_mul]
        have hz1 : |z| ≤ B := by
          rw [abs_le] at hzc ⊢
          have : (0 : ℚ) ≤ c.f := by positivity
          constructor <;> linarith [hzc.1, hzc.2]
        exact mul_le_mul hy hz1 (abs_nonneg _) hε
      have a2 : |(w.f : ℚ) * (c.f - z)| < B / 2 := by
        rw [abs_mul, abs_of_nonneg hwf0]
        calc (w.f : ℚ) * |(c.f : ℚ) - z| ≤ w.f * (1 / 2) := mul_le_mul_of_nonneg_left hzc hwf0
          _ < B / 2 := by linarith
      have a3 : |((y0 - w.f) * z - w.f * (c.f - z)) / B| < ε + 1 / 2 := by
        rw [abs_div, abs_of_pos hBpos, div_lt_iff₀ hBpos]
        refine lt_of_le_of_lt (abs_sub _ _) ?_
        linarith
      rw [e]
      refine lt_of_le_of_lt (abs_sub _ _) ?_
      linarith
    have hval : Y * 10 ^ K = y1 * 2 ^ m.e := by
      rw [hYe, h10, hme, hy1, zpow_add₀ (by norm_num), zpow_add₀ (by norm_num), zpow_natCast, ← hB]
      field_simp
    -- size of the product
    have hmlo : 2 ^ (T.W - 2) ≤ m.f := by
      rw [hmf, Nat.le_div_iff_mul_le (by positivity)]
      have := Nat.mul_le_mul h1 c1
      have e : 2 ^ (T.W - 2) * 2 ^ T.W = 2 ^ (T.W - 1) * 2 ^ (T.W - 1) := by cases T <;> decide
      omega
    have hmhi : m.f < 2 ^ T.W := by
      rw [hmf]
      apply Nat.div_lt_of_lt_mul
      have h1 : w.f * c.f ≤ (2 ^ T.W - 1) * (2 ^ T.W - 1) := Nat.mul_le_mul (by omega) (by omega)
      have h2 : (2 ^ T.W - 1) * (2 ^ T.W - 1) + 2 ^ (T.W - 1) < 2 ^ T.W * 2 ^ T.W := by
        cases T <;> norm_num [FloatType.W]
      omega
    have hm0 : m.f ≠ 0 := by have : 0 < 2 ^ (T.W - 2) := by positivity
                             omega
    obtain ⟨j, hj, hn, n1, n2⟩ := normalize_ok (W_pos T) m hm0 hmhi
    have hj1 : j ≤ 1 := by
      by_contra hc
      have h3 := Nat.mul_le_mul hmlo (Nat.pow_le_pow_right (show 0 < 2 by norm_num) (show 2 ≤ j by omega))
      have h4 : 2 ^ (T.W - 2) * 2 ^ 2 = 2 ^ T.W := by cases T <;> decide
      omega
    refine ⟨_, y1 * 2 ^ j, j, hn, n1, n2, hj1, ⟨m.f, by ring⟩, ?_, ?_, fun h => absurd h hK0⟩
    · rw [hval]
      dsimp only
      rw [zpow_sub₀ (by norm_num), zpow_natCast]; field_simp
    · dsimp only
      push_cast
      rw [← sub_mul, abs_mul, abs_of_pos (show (0 : ℚ) < 2 ^ j by positivity)]
      exact mul_lt_mul_of_pos_right hy1m (by positivity)

end Floaxie
