import Verif.Prop.Errors
import Verif.Prop.RoundTrip
import Verif.Prop.Enough

/-!
# C59, C60: numerals of any length near a value
-/

namespace Floaxie

open Spec FloatType

/-- Everything relatively closer than `2^-(p+1)` to a finite value identifies it; magnitudes. -/
theorem near_identifies_abs {T : FloatType} {a : Nat} {X : ℚ} (ha : a < posInf T) (h0 : a ≠ 0)
    (h : |X - N T a| * 2 ^ (T.p + 1) < N T a) : Identifies T (X * 2 ^ emin T) a := by
  obtain ⟨c, rfl⟩ : ∃ c, a = c + 1 := ⟨a - 1, by omega⟩
  have s1 := N_succ T c
  have s2 := N_succ T (c + 1)
  have g1 := N_succ_le T c
  have g2 := N_succ_le T (c + 1)
  have p1 := ulpN_pos T c
  have p2 := ulpN_pos T (c + 1)
  have g1' : (N T (c + 1) : ℚ) ≤ 2 ^ T.p * ulpN T c := by exact_mod_cast g1
  have g2' : (N T (c + 1 + 1) : ℚ) ≤ 2 ^ T.p * ulpN T (c + 1) := by exact_mod_cast g2
  have s1' : (N T (c + 1) : ℚ) = N T c + ulpN T c := by exact_mod_cast s1
  have s2' : (N T (c + 1 + 1) : ℚ) = N T (c + 1) + ulpN T (c + 1) := by exact_mod_cast s2
  have p1' : (0 : ℚ) < ulpN T c := by exact_mod_cast p1
  have p2' : (0 : ℚ) < ulpN T (c + 1) := by exact_mod_cast p2
  have hVn : (0 : ℚ) ≤ N T c := by positivity
  have hpow : (2 : ℚ) ^ (T.p + 1) = 2 * 2 ^ T.p := by ring
  have hq : (1 : ℚ) ≤ 2 ^ T.p := one_le_pow₀ (by norm_num)
  rw [hpow] at h
  generalize (2 : ℚ) ^ T.p = Q at *
  have hle := abs_le.mp (le_refl |X - N T (c + 1)|)
  have k1 : |X - N T (c + 1)| < ulpN T c / 2 := by
    have : |X - N T (c + 1)| * (2 * Q) < ulpN T c / 2 * (2 * Q) := by linarith
    exact lt_of_mul_lt_mul_right this (by linarith)
  have k2 : |X - N T (c + 1)| < ulpN T (c + 1) / 2 := by
    have : |X - N T (c + 1)| * (2 * Q) < ulpN T (c + 1) / 2 * (2 * Q) := by linarith
    exact lt_of_mul_lt_mul_right this (by linarith)
  refine closest_pos ha (by linarith [hle.1]) (Or.inr ?_) ?_
  · rw [Nat.add_sub_cancel]; linarith [hle.1]
  · linarith [hle.2]

/-- The same with signs. -/
theorem near_identifies {T : FloatType} {b : Nat} {y : ℚ} (hf : IsFinite T b) (h0 : value T b ≠ 0)
    (h : |y - value T b| * 2 ^ (T.p + 1) < |value T b|) : Identifies T y b := by
  have hu := emin_pos T
  have ha := absPat_lt_posInf hf
  have ha0 : absPat T b ≠ 0 := fun c => h0 (value_zero_iff.mpr c)
  have hv := value_sign hf h0
  have hq : (0 : ℚ) < 2 ^ (T.p + 1) := by positivity
  by_cases c : value T b < 0
  · have hX : |-y / 2 ^ emin T - N T (absPat T b)| * 2 ^ (T.p + 1) < N T (absPat T b) := by
      have e : |y - value T b| = |-y / 2 ^ emin T - N T (absPat T b)| * 2 ^ emin T := by
        have : value T b = -(N T (absPat T b) * 2 ^ emin T) := by rw [← value_abs, abs_of_neg c]; ring
        rw [this, ← abs_of_pos (a := (2 : ℚ) ^ emin T) hu, ← abs_mul, abs_of_pos hu, ← abs_neg]
        congr 1; field_simp; ring
      rw [e, value_abs] at h
      apply lt_of_mul_lt_mul_right _ hu.le
      linarith
    have hi := identifies_signed hf (near_identifies_abs ha ha0 hX)
    rw [if_pos (by simpa using hv.mpr c)] at hi
    have : -(-y / 2 ^ emin T * 2 ^ emin T) = y := by field_simp
    rwa [this] at hi
  · have hX : |y / 2 ^ emin T - N T (absPat T b)| * 2 ^ (T.p + 1) < N T (absPat T b) := by
      have e : |y - value T b| = |y / 2 ^ emin T - N T (absPat T b)| * 2 ^ emin T := by
        have : value T b = N T (absPat T b) * 2 ^ emin T := by rw [← value_abs, abs_of_nonneg (by linarith)]
        rw [this, ← abs_of_pos (a := (2 : ℚ) ^ emin T) hu, ← abs_mul, abs_of_pos hu]
        congr 1; field_simp
      rw [e, value_abs] at h
      apply lt_of_mul_lt_mul_right _ hu.le
      linarith
    have hi := identifies_signed hf (near_identifies_abs ha ha0 hX)
    rw [if_neg (by simpa using fun d => c (hv.mp d))] at hi
    have : y / 2 ^ emin T * 2 ^ emin T = y := by field_simp
    rwa [this] at hi

theorem not_tie_of_identifies {T : FloatType} {t : ℚ} {b : Nat} (h : Identifies T t b) : ¬ IsTieOrLimit T t := by
  rintro (⟨c, c', h1, h2, h3, h4, h5⟩ | h1)
  · have h6 := h5 b h.1
    by_cases hc : value T c = value T b
    · have := h.2.2 c' h2 (by rw [← hc]; exact h3.symm)
      rw [hc] at h4; linarith
    · have := h.2.2 c h1 hc
      linarith
  · have := h.2.1; linarith

/-- **C59.** A numeral of any length that is relatively within `2^-(p+2)` (a
quarter of a unit of the last place) of a finite nonzero value that is not a power of two is read
as that value: status success, the numeral consumed, no fallback, `errno` left
alone.  For `float` the numeral has to be at least `10^-42`. -/
theorem C59_near (T : FloatType) (fb : Fallback) (errno : Nat) (mem : List Nat) (str : Nat) (n : Numeral)
    (h : NumeralAt mem str n) (b : Nat) (hf : IsFinite T b) (h0 : value T b ≠ 0)
    (hnear : |n.value - value T b| ≤ |value T b| / 2 ^ (T.p + 2)) (hp : ∀ i : Int, |value T b| ≠ 2 ^ i)
    (hfl : T = .float → 10 ^ (-42 : Int) ≤ n.absValue) :
    atof T fb errno mem str = .ok ⟨b, .success, str + n.text.length, errno, false⟩ := by
  have hu := emin_pos T
  have hs := slack_pos T
  set V : ℚ := |value T b| with hV
  have hV0 : 0 < V := abs_pos.mpr h0
  set q : ℚ := 2 ^ (T.p + 2) with hq
  have hq0 : 0 < q := by rw [hq]; positivity
  have hq2 : (2 : ℚ) ^ (T.p + 1) = q / 2 := by rw [hq]; ring
  have hab : |n.value| = n.absValue := abs_value_num n
  -- magnitudes
  have hmag : |n.absValue - V| ≤ V / q := by
    rw [← hab, hV]
    exact le_trans (abs_abs_sub_abs_le _ _) hnear
  have hm := abs_le.mp hmag
  have hx := absValue_nonneg n
  have hsq : slack T * q < 1 := by
    rw [hq]; cases T <;> norm_num [slack, FloatType.p]
  have hq8 : 8 ≤ q := by
    rw [hq]; cases T <;> norm_num [FloatType.p]
  -- what is within `slack` of the numeral identifies `b`
  have hslack : slack T * 3 * q < 2 := by
    rw [hq]; cases T <;> norm_num [slack, FloatType.p]
  have hbound : n.absValue * slack T < V / q := by
    have h1 : n.absValue ≤ V * (3 / 2) := by
      have : V / q ≤ V / 8 := div_le_div_of_nonneg_left hV0.le (by norm_num) hq8
      linarith [hm.2]
    rw [lt_div_iff₀ hq0]
    have h2 : n.absValue * (slack T * q) ≤ V * (3 / 2) * (slack T * q) :=
      mul_le_mul_of_nonneg_right h1 (by positivity)
    nlinarith
  have close : ∀ y : ℚ, |y - n.value| ≤ n.absValue * slack T → Identifies T y b := by
    intro y hy
    apply near_identifies hf h0
    have h1 : |y - value T b| ≤ |y - n.value| + |n.value - value T b| := by
      have := abs_add_le (y - n.value) (n.value - value T b)
      simpa using this
    have h2 : |y - value T b| < 2 * (V / q) := by linarith
    rw [hq2]
    have h3 : 2 * (V / q) * (q / 2) = V := by field_simp
    have h4 := mul_lt_mul_of_pos_right h2 (show 0 < q / 2 by linarith)
    rw [h3] at h4
    exact h4
  have close' : ∀ t : ℚ, |t - n.absValue| ≤ n.absValue * slack T → |t| < overflowThreshold T ∧ ¬ IsTieOrLimit T t := by
    intro t ht
    have habs : Identifies T t (absPat T b) := by
      have hfa : IsFinite T (absPat T b) := isFinite_of_lt (absPat_lt_posInf hf)
      have hva : value T (absPat T b) = V := by rw [value_of_lt (absPat_lt_posInf hf), ← value_abs]
      apply near_identifies hfa (by rw [hva]; exact hV0.ne')
      rw [hva, abs_of_pos (a := V) hV0]
      have h1 : |t - V| ≤ |t - n.absValue| + |n.absValue - V| := by
        have := abs_add_le (t - n.absValue) (n.absValue - V)
        simpa using this
      have h2 : |t - V| < 2 * (V / q) := by linarith
      rw [hq2]
      have h3 : 2 * (V / q) * (q / 2) = V := by field_simp
      have h4 := mul_lt_mul_of_pos_right h2 (show 0 < q / 2 by linarith)
      rw [h3] at h4
      exact h4
    exact ⟨habs.2.1, not_tie_of_identifies habs⟩
  have hx2 : n.absValue * (1 + slack T) < overflowThreshold T := by
    have h1 := (close' (n.absValue * (1 + slack T)) (by
      rw [show n.absValue * (1 + slack T) - n.absValue = n.absValue * slack T by ring, abs_of_nonneg (by positivity)])).1
    rwa [abs_of_nonneg (by positivity)] at h1
  have hx1 : 2 ^ emin T ≤ n.absValue * (1 - slack T) := by
    -- the value is at least three times the least subnormal one
    have hN : V = N T (absPat T b) * 2 ^ emin T := by rw [hV, value_abs]
    have hN3 : 3 ≤ N T (absPat T b) := by
      have n0 : N T (absPat T b) ≠ 0 := by
        intro c; rw [hN, c] at hV0; simp at hV0
      have n1 : N T (absPat T b) ≠ 1 := by
        intro c; apply hp (emin T); rw [hN, c]; simp
      have n2 : N T (absPat T b) ≠ 2 := by
        intro c; apply hp (emin T + 1); rw [hN, c, zpow_add₀ (by norm_num)]; push_cast; ring
      omega
    have hN3' : (3 : ℚ) ≤ N T (absPat T b) := by exact_mod_cast hN3
    have h3 : 3 * 2 ^ emin T ≤ V := by rw [hN]; exact mul_le_mul_of_nonneg_right hN3' hu.le
    have : V / q ≤ V / 8 := div_le_div_of_nonneg_left hV0.le (by norm_num) hq8
    linarith [hm.1]
  obtain ⟨r, r1, r2⟩ := C23_backward T fb errno mem str n h hx1 hx2 hfl
  rcases r2 with ⟨-, t, t1, t2⟩ | ⟨x, c, v, x1, x2, x3, x4⟩
  · exact absurd t1 (close' t t2).2
  · have hi := close x x1
    have hcb : c = b := identifies_roundsTo_unique hi h0 x2
    subst hcb
    rcases x4 with rfl | ⟨-, -, j, -, j2, -⟩
    · rw [r1, x3]
    · exact absurd j2 (hp j)

/-- **C59, exact texts.** A numeral of any length whose value is exactly a finite
nonzero value that is not a power of two - such as its full decimal expansion - is
read as that value without fallback. -/
theorem C59_exact (T : FloatType) (fb : Fallback) (errno : Nat) (mem : List Nat) (str : Nat) (n : Numeral)
    (h : NumeralAt mem str n) (b : Nat) (hf : IsFinite T b) (h0 : value T b ≠ 0) (he : n.value = value T b)
    (hp : ∀ i : Int, |value T b| ≠ 2 ^ i) (hfl : T = .float → 10 ^ (-42 : Int) ≤ n.absValue) :
    atof T fb errno mem str = .ok ⟨b, .success, str + n.text.length, errno, false⟩ :=
  C59_near T fb errno mem str n h b hf h0 (by rw [he, sub_self, abs_zero]; positivity) hp hfl

/-- Eighteen (`double`) / nine (`float`) digits. -/
def plentyDigits : FloatType → Nat
  | .float => 9
  | .double => 18

/-- **C59, many digits.** A value that is not a power of two, printed by anybody
with 18 (`double`) / 9 (`float`) or more correctly rounded digits, is read back
without fallback. -/
theorem C59_many_digits (T : FloatType) (fb : Fallback) (errno : Nat) (mem : List Nat) (str : Nat) (n : Numeral)
    (h : NumeralAt mem str n) (b : Nat) (hf : IsFinite T b) (h0 : value T b ≠ 0)
    (D m : Nat) (e : Int) (hD : plentyDigits T ≤ D) (hn : n.absValue = m * 10 ^ e) (hr : RoundedDecimal D |value T b| m e)
    (hs : n.isNeg = true ↔ value T b < 0) (hp : ∀ i : Int, |value T b| ≠ 2 ^ i)
    (hfl : T = .float → 10 ^ (-42 : Int) ≤ n.absValue) :
    atof T fb errno mem str = .ok ⟨b, .success, str + n.text.length, errno, false⟩ := by
  refine C59_near T fb errno mem str n h b hf h0 ?_ hp hfl
  have hV0 : 0 < |value T b| := abs_pos.mpr h0
  have hsgn : |n.value - value T b| = abs (n.absValue - |value T b|) := by
    unfold Numeral.value
    by_cases c : value T b < 0
    · rw [if_pos (hs.mpr c), abs_of_neg c, ← abs_neg]; congr 1; ring
    · rw [if_neg (fun d => c (hs.mp d)), abs_of_nonneg (not_lt.mp c)]
  rw [hsgn, hn]
  obtain ⟨r1, -, r3⟩ := hr
  generalize |value T b| = V at *
  have h10 : (0 : ℚ) < 10 ^ e := by positivity
  have hm : (10 : ℚ) ^ (plentyDigits T - 1) ≤ m := by
    have : 10 ^ (plentyDigits T - 1) ≤ m := le_trans (Nat.pow_le_pow_right (by norm_num) (by omega)) r1
    exact_mod_cast this
  have hk : (2 : ℚ) ^ (T.p + 2) ≤ 2 * 10 ^ (plentyDigits T - 1) - 1 := by
    cases T <;> norm_num [plentyDigits, FloatType.p]
  refine le_trans r3 ?_
  rw [le_div_iff₀ (by positivity)]
  have h1 : 10 ^ e / 2 * (2 : ℚ) ^ (T.p + 2) ≤ 10 ^ e / 2 * (2 * m - 1) :=
    mul_le_mul_of_nonneg_left (by linarith) (by linarith)
  have := (abs_le.mp r3).2
  linarith

/-- **C59, powers of two are an exception, even spelled exactly:** all 50 digits of
`2^163` are read, as `double`, as `2^162`, with status success; all 27 digits of
`2^87` are read, as `float`, as `2^86`. -/
theorem C59_refuted_pow2 (fb : Fallback) (errno : Nat) :
    (atof .double fb errno (chars "11692013098647223345629478661730264157247460343808\x00") 0 =
        .ok ⟨(1023 + 162) * 2 ^ 52, .success, 50, errno, false⟩ ∧
      11692013098647223345629478661730264157247460343808 = 2 ^ 163) ∧
    (atof .float fb errno (chars "154742504910672534362390528\x00") 0 = .ok ⟨(127 + 86) * 2 ^ 23, .success, 27, errno, false⟩ ∧
      154742504910672534362390528 = 2 ^ 87) := by
  have h1 : krosh .double (chars "11692013098647223345629478661730264157247460343808\x00") 0 =
    .ok ⟨(1023 + 162) * 2 ^ 52, 50, .success, true⟩ := by decide +kernel
  have h2 : krosh .float (chars "154742504910672534362390528\x00") 0 =
    .ok ⟨(127 + 86) * 2 ^ 23, 27, .success, true⟩ := by decide +kernel
  refine ⟨⟨?_, by norm_num⟩, ?_, by norm_num⟩
  · rw [atof_of_krosh h1 (by decide)]; rfl
  · rw [atof_of_krosh h2 (by decide)]; rfl

/-- "0.1000000000000000055511151231257827", 0.1 as `double` to 34 digits -/
def tenthLong : Numeral :=
  ⟨none, [0], some [1,0,0,0,0,0,0,0,0,0,0,0,0,0,0,0,0,5,5,5,1,1,1,5,1,2,3,1,2,5,7,8,2,7], none⟩

theorem value_tenth : value .double 0x3fb999999999999a = 3602879701896397 / 2 ^ 55 := by
  norm_num [value, signBit, mag, expField, fracField, emin, FloatType.W, FloatType.p, FloatType.minExp]

/-- The hypotheses of C59 are met: 0.1 with 34 digits. -/
example (fb : Fallback) (errno : Nat) :
    atof .double fb errno (tenthLong.text ++ [0]) 0 = .ok ⟨0x3fb999999999999a, .success, 36, errno, false⟩ := by
  have hn : tenthLong.absValue = 1000000000000000055511151231257827 / 10 ^ 34 := by
    simp only [tenthLong, Numeral.absValue, Numeral.fracDigits, Numeral.expValue, Option.getD_some]
    rw [show digitsVal ([0] ++ [1,0,0,0,0,0,0,0,0,0,0,0,0,0,0,0,0,5,5,5,1,1,1,5,1,2,3,1,2,5,7,8,2,7]) =
      1000000000000000055511151231257827 by decide +kernel]
    norm_num
  have hv : tenthLong.value = tenthLong.absValue := rfl
  have := C59_near .double fb errno (tenthLong.text ++ [0]) 0 tenthLong
    (numeralAt_cstr ⟨by decide, by intro e he; cases he⟩ (by decide) (by intro e he; cases he))
    0x3fb999999999999a ⟨by decide, by decide⟩ (by rw [value_tenth]; norm_num)
    (by rw [hv, hn, value_tenth, abs_of_pos (a := (3602879701896397 / 2 ^ 55 : ℚ)) (by norm_num), abs_le]
        constructor <;> norm_num [FloatType.p])
    (by
      intro i hi
      rw [value_tenth, abs_of_pos (by norm_num)] at hi
      have h1 : (2 : ℚ) ^ (-4 : ℤ) < 2 ^ i := by rw [← hi]; norm_num
      have h2 : (2 : ℚ) ^ i < 2 ^ (-3 : ℤ) := by rw [← hi]; norm_num
      have h1' := (zpow_lt_zpow_iff_right₀ (by norm_num)).mp h1
      have h2' := (zpow_lt_zpow_iff_right₀ (by norm_num)).mp h2
      omega)
    (by simp)
  rw [this]
  rfl

/-! ## C60 -/

/-- What identifies a normal value is relatively within `2^-p` of it. -/
theorem identifies_close {T : FloatType} {b : Nat} {y : ℚ} (hb : AboveLeastNormal T b) (h : Identifies T y b) :
    |y - value T b| ≤ |value T b| / 2 ^ T.p := by
  obtain ⟨hf, hn⟩ := hb
  rw [absPat_mod] at hn
  have hu := emin_pos T
  have ha := absPat_lt_posInf hf
  have h0 : value T b ≠ 0 := value_ne_zero_above ⟨hf, by rw [absPat_mod]; exact hn⟩
  have hv := value_sign hf h0
  have hp0 : 0 < 2 ^ (T.p - 1) := by positivity
  have ha0 : absPat T b ≠ 0 := by omega
  have hP : (2 : ℚ) ^ T.p = 2 * 2 ^ (T.p - 1) := by rw [← pow_succ']; congr 1; cases T <;> decide
  have key : ∀ x : ℚ, Identifies T x (absPat T b) → |x - N T (absPat T b) * 2 ^ emin T| ≤ N T (absPat T b) * 2 ^ emin T / 2 ^ T.p := by
    intro x hx
    obtain ⟨m1, m2⟩ := identifies_mids ha ha0 hx
    obtain ⟨g1, g2, g3, -, g5⟩ := normal_gaps hn
    have g1' : (N T (absPat T b) : ℚ) = N T (absPat T b - 1) + ulpN T (absPat T b - 1) := by exact_mod_cast g1
    have g2' : (N T (absPat T b + 1) : ℚ) = N T (absPat T b) + ulpN T (absPat T b) := by exact_mod_cast g2
    have g3' : (ulpN T (absPat T b - 1) : ℚ) ≤ ulpN T (absPat T b) := by exact_mod_cast g3
    have g5' : (2 : ℚ) ^ (T.p - 1) * ulpN T (absPat T b) ≤ N T (absPat T b) := by exact_mod_cast g5
    have h1 : (ulpN T (absPat T b) : ℚ) / 2 * 2 ^ emin T ≤ N T (absPat T b) * 2 ^ emin T / 2 ^ T.p := by
      rw [le_div_iff₀ (by positivity), hP]
      have := mul_le_mul_of_nonneg_right g5' hu.le
      linarith
    have h2 := mul_le_mul_of_nonneg_right g3' hu.le
    rw [abs_le]
    rw [show (N T (absPat T b - 1) : ℚ) = N T (absPat T b) - ulpN T (absPat T b - 1) by linarith] at m1
    rw [g2'] at m2
    constructor <;> linarith
  by_cases c : value T b < 0
  · have hs := hv.mpr c
    have hbn : neg T b = absPat T b := by
      have h1 := bits_of_sign hf.1
      rw [if_pos hs] at h1
      have h2 : neg T (neg T (absPat T b)) = absPat T b := by
        unfold neg; rw [Nat.xor_assoc, Nat.xor_self, Nat.xor_zero]
      rw [← h1] at h2; exact h2
    have := key (-y) (by rw [← hbn]; exact identifies_neg h)
    have e : value T b = -(N T (absPat T b) * 2 ^ emin T) := by rw [← value_abs, abs_of_neg c]; ring
    rw [value_abs, e, ← abs_neg]
    rw [show -(y - -((N T (absPat T b) : ℚ) * 2 ^ emin T)) = -y - N T (absPat T b) * 2 ^ emin T by ring]
    exact this
  · have hs : ¬ signBit T b = 1 := fun d => c (hv.mp d)
    have hbn : b = absPat T b := by
      have h1 := bits_of_sign hf.1
      rwa [if_neg hs] at h1
    have := key y (by rw [← hbn]; exact h)
    have e : value T b = N T (absPat T b) * 2 ^ emin T := by rw [← value_abs, abs_of_nonneg (not_lt.mp c)]
    rw [value_abs, e]
    exact this

/-- **C60.** Let the `double` `d` and the `float` `f` have the same value, not a power of two and of
magnitude at least `10^-41`.  A numeral of any length that stands for `d` - in that it is nearer to it
than to any other `double` - is read by `atof<float>` as `f`, without fallback. -/
theorem C60_double_text_as_float (fb : Fallback) (errno : Nat) (mem : List Nat) (str : Nat) (n : Numeral)
    (h : NumeralAt mem str n) (d f : Nat) (hd : IsFinite .double d) (hf : IsFinite .float f)
    (hv : value .double d = value .float f) (hlo : 10 ^ (-41 : Int) ≤ |value .float f|)
    (hp : ∀ i : Int, |value .float f| ≠ 2 ^ i) (hn : Identifies .double n.value d) :
    atof .float fb errno mem str = .ok ⟨f, .success, str + n.text.length, errno, false⟩ := by
  have h41 : (0 : ℚ) < 10 ^ (-41 : Int) := by positivity
  have h0 : value .float f ≠ 0 := by
    intro c; rw [c, abs_zero] at hlo; linarith
  have hab : AboveLeastNormal .double d := by
    refine ⟨hd, ?_⟩
    rw [absPat_mod]
    by_contra hc
    push Not at hc
    have h1 : |value .double d| ≤ N .double (2 ^ (FloatType.double.p - 1)) * 2 ^ emin .double := by
      rw [value_abs]
      apply mul_le_mul_of_nonneg_right _ (emin_pos _).le
      exact_mod_cast N_le hc
    rw [hv, show N .double (2 ^ (FloatType.double.p - 1)) = 2 ^ 52 by decide] at h1
    have h2 : (2 : ℚ) ^ emin .double ≤ 2 ^ (-200 : Int) := zpow_le_zpow_right₀ (by norm_num) (by decide)
    have h3 : ((2 ^ 52 : Nat) : ℚ) * 2 ^ emin .double ≤ 2 ^ 52 * 2 ^ (-200 : Int) := by
      push_cast; exact mul_le_mul_of_nonneg_left h2 (by norm_num)
    have h4 : (2 : ℚ) ^ 52 * 2 ^ (-200 : Int) < 10 ^ (-41 : Int) := by norm_num
    linarith
  have hc := identifies_close hab hn
  rw [hv] at hc
  have hle : |value .float f| / 2 ^ FloatType.double.p ≤ |value .float f| / 2 ^ (FloatType.float.p + 2) := by
    apply div_le_div_of_nonneg_left (abs_nonneg _) (by positivity)
    norm_num [FloatType.p]
  refine C59_near .float fb errno mem str n h f hf h0 (hc.trans hle) hp (fun _ => ?_)
  rw [← abs_value_num]
  have h1 : |value .float f| / 2 ^ FloatType.double.p ≤ |value .float f| / 2 := by
    apply div_le_div_of_nonneg_left (abs_nonneg _) (by positivity)
    norm_num [FloatType.p]
  have h2 : |value .float f| - |n.value| ≤ |n.value - value .float f| := by
    rw [abs_sub_comm]; exact abs_sub_abs_le_abs_sub _ _
  have h3 : (10 : ℚ) ^ (-42 : Int) ≤ 10 ^ (-41 : Int) / 2 := by norm_num
  generalize (10 : ℚ) ^ (-42 : Int) = A at *
  generalize (10 : ℚ) ^ (-41 : Int) = B at *
  linarith

/-- **C60.** In particular what `ftoa` prints for the widened value. -/
theorem C60_widened (fb : Fallback) (errno : Nat) (mem : List Nat) (str : Nat) (n : Numeral)
    (h : NumeralAt mem str n) (d f : Nat) (hd : IsFinite .double d) (hf : IsFinite .float f)
    (hv : value .double d = value .float f) (hlo : 10 ^ (-41 : Int) ≤ |value .float f|)
    (hp : ∀ i : Int, |value .float f| ≠ 2 ^ i) (hn : Prints .double d n.text) :
    atof .float fb errno mem str = .ok ⟨f, .success, str + n.text.length, errno, false⟩ := by
  have h0 : value .double d ≠ 0 := by
    intro c
    rw [← hv, c, abs_zero] at hlo
    have h41 : (0 : ℚ) < 10 ^ (-41 : Int) := by positivity
    linarith
  obtain ⟨m, -, m1, m2⟩ := C01_ftoa_identifies .double d hd h0
  have hnm : n = m := numeral_text_inj _ _ (prints_unique hn m1)
  rw [← hnm] at m2
  exact C60_double_text_as_float fb errno mem str n h d f hd hf hv hlo hp m2

/-- "1.0000000149011612e-01", which is how 0.1 as `float`, widened to `double`, is printed -/
def tenthWidened : Numeral := ⟨none, [1], some [0,0,0,0,0,0,0,1,4,9,0,1,1,6,1,2], some ⟨false, some true, [0, 1]⟩⟩

/-- The hypotheses of C60 are met. -/
example (fb : Fallback) (errno : Nat) :
    toBasicString .double 0x3FB99999A0000000 = .ok tenthWidened.text ∧
    atof .float fb errno (tenthWidened.text ++ [0]) 0 = .ok ⟨0x3DCCCCCD, .success, 22, errno, false⟩ := by
  refine ⟨by decide +kernel, ?_⟩
  have hn : tenthWidened.absValue = 10000000149011612 / 10 ^ 17 := by
    norm_num [tenthWidened, Numeral.absValue, Numeral.fracDigits, Numeral.expValue, ExpPart.value, digitsVal]
  have hnv : tenthWidened.value = tenthWidened.absValue := rfl
  have v1 : value .double 0x3FB99999A0000000 = 13421773 / 2 ^ 27 := by
    norm_num [value, signBit, mag, expField, fracField, emin, FloatType.W, FloatType.p, FloatType.minExp]
  have v2 : value .float 0x3DCCCCCD = 13421773 / 2 ^ 27 := by
    norm_num [value, signBit, mag, expField, fracField, emin, FloatType.W, FloatType.p, FloatType.minExp]
  have hd : IsFinite .double 0x3FB99999A0000000 := ⟨by decide, by decide⟩
  have hid : Identifies .double tenthWidened.value 0x3FB99999A0000000 := by
    apply near_identifies hd (by rw [v1]; norm_num)
    rw [hnv, hn, v1, abs_of_pos (a := (13421773 / 2 ^ 27 : ℚ)) (by norm_num), ← lt_div_iff₀ (by positivity), abs_lt]
    constructor <;> norm_num [FloatType.p]
  have := C60_double_text_as_float fb errno (tenthWidened.text ++ [0]) 0 tenthWidened
    (numeralAt_cstr ⟨by decide, by intro e he; cases he; decide⟩ (by decide)
      (by intro e he; cases he; exact ⟨by decide, readable_of_lt (by decide)⟩))
    0x3FB99999A0000000 0x3DCCCCCD hd ⟨by decide, by decide⟩ (by rw [v1, v2])
    (by rw [v2, abs_of_pos (by norm_num)]; norm_num)
    (by
      intro i hi
      rw [v2, abs_of_pos (by norm_num)] at hi
      have h1 : (2 : ℚ) ^ (-4 : ℤ) < 2 ^ i := by rw [← hi]; norm_num
      have h2 : (2 : ℚ) ^ i < 2 ^ (-3 : ℤ) := by rw [← hi]; norm_num
      have h1' := (zpow_lt_zpow_iff_right₀ (by norm_num)).mp h1
      have h2' := (zpow_lt_zpow_iff_right₀ (by norm_num)).mp h2
      omega)
    hid
  rw [this]
  rfl

/-- **C60, the lower limit is real:** the least `float`, widened and printed, is
"1.401298464324817e-45", which `atof<float>` reads as zero with status underflow;
so is the exception for powers of two: `2^100` prints as "1.2676506002282295e30",
read as `2^99`. -/
theorem C60_refuted (fb : Fallback) (errno : Nat) :
    toBasicString .double 0x36A0000000000000 = .ok (chars "1.401298464324817e-45") ∧
    atof .float fb errno (chars "1.401298464324817e-45\x00") 0 = .ok ⟨0, .underflow, 21, errno, false⟩ ∧
    toBasicString .double ((1023 + 100) * 2 ^ 52) = .ok (chars "1.2676506002282295e30") ∧
    atof .float fb errno (chars "1.2676506002282295e30\x00") 0 = .ok ⟨(127 + 99) * 2 ^ 23, .success, 21, errno, false⟩ := by
  have h1 : krosh .float (chars "1.401298464324817e-45\x00") 0 = .ok ⟨0, 21, .underflow, true⟩ := by decide +kernel
  have h2 : krosh .float (chars "1.2676506002282295e30\x00") 0 = .ok ⟨(127 + 99) * 2 ^ 23, 21, .success, true⟩ := by decide +kernel
  refine ⟨by decide +kernel, ?_, by decide +kernel, ?_⟩
  · rw [atof_of_krosh h1 (by decide)]; rfl
  · rw [atof_of_krosh h2 (by decide)]; rfl

end Floaxie
