import Verif.Spec.Rounded
import Verif.Prop.FullCircle
import Verif.Prop.Range

/-!
# Reading numbers printed with enough digits by somebody else (C56)
-/

namespace Floaxie

open FloatType Spec

theorem N_succ_le (T : FloatType) (a : Nat) : N T (a + 1) ≤ 2 ^ T.p * ulpN T a := by
  rw [N_succ]
  unfold N ulpN
  have hP : 2 ^ T.p = 2 * 2 ^ (T.p - 1) := by cases T <;> decide
  rw [hP]
  have hm := Nat.mod_lt a (show 0 < 2 ^ (T.p - 1) by positivity)
  generalize 2 ^ (T.p - 1) = P at *
  generalize 2 ^ (a / P - 1) = u
  generalize a % P = F at *
  have : (if a / P = 0 then F else P + F) + 1 ≤ 2 * P := by split_ifs <;> omega
  calc (if a / P = 0 then F else P + F) * u + u = ((if a / P = 0 then F else P + F) + 1) * u := by ring
    _ ≤ 2 * P * u := Nat.mul_le_mul_right _ this

/-- Seventeen (nine) digits identify a `double` (`float`), magnitudes. -/
theorem rounded_identifies_abs {T : FloatType} {b m D : Nat} {e : Int} (hf : IsFinite T b)
    (h0 : value T b ≠ 0) (hd : maxSigDigits T ≤ D) (h : RoundedDecimal D |value T b| m e) :
    Identifies T ((m : ℚ) * 10 ^ e) (absPat T b) := by
  obtain ⟨h1, -, h3⟩ := h
  replace h1 : 10 ^ (maxSigDigits T - 1) ≤ m := le_trans (Nat.pow_le_pow_right (by norm_num) (by omega)) h1
  clear hd
  rw [value_abs] at h3
  have hu := emin_pos T
  have ha := absPat_lt_posInf hf
  have ha0 : absPat T b ≠ 0 := fun c => h0 (value_zero_iff.mpr c)
  generalize absPat T b = a at *
  set X : ℚ := (m : ℚ) * 10 ^ e / 2 ^ emin T with hX
  have e1 : (m : ℚ) * 10 ^ e = X * 2 ^ emin T := by rw [hX]; field_simp
  have h10 : (0 : ℚ) < 10 ^ e := by positivity
  set D : ℚ := 2 * 10 ^ (maxSigDigits T - 1) with hD
  have hm : (10 : ℚ) ^ (maxSigDigits T - 1) ≤ m := by exact_mod_cast h1
  have hm0 : (0 : ℚ) < m := lt_of_lt_of_le (by positivity) hm
  have hXpos : 0 < X := by rw [hX]; positivity
  have hD0 : 0 < D := by rw [hD]; positivity
  -- distance relative to X
  have hd : |X - N T a| * D ≤ X := by
    have h4 : |X - N T a| * 2 ^ emin T ≤ 10 ^ e / 2 := by
      rw [show |X - N T a| * 2 ^ emin T = |X * 2 ^ emin T - N T a * 2 ^ emin T| by
        rw [← sub_mul, abs_mul, abs_of_pos hu], ← e1]
      exact h3
    have h5 : 10 ^ e / 2 * D ≤ X * 2 ^ emin T := by
      rw [← e1, hD]
      have := mul_le_mul_of_nonneg_right hm h10.le
      linarith
    have h6 := mul_le_mul_of_nonneg_right h4 hD0.le
    have h7 : |X - N T a| * D * 2 ^ emin T ≤ X * 2 ^ emin T := by
      calc _ = |X - N T a| * 2 ^ emin T * D := by ring
        _ ≤ _ := h6.trans h5
    exact le_of_mul_le_mul_right h7 hu
  have hDp : (2 : ℚ) ^ (T.p + 1) + 1 < D := by
    rw [hD]; cases T <;> norm_num [maxSigDigits, FloatType.p]
  obtain ⟨d1, d2⟩ := abs_le.mp (le_refl |X - N T a|)
  rw [e1]
  obtain ⟨c, rfl⟩ : ∃ c, a = c + 1 := ⟨a - 1, by omega⟩
  have s1 := N_succ T c
  have s2 := N_succ T (c + 1)
  have g1 := N_succ_le T c
  have g2 := N_succ_le T (c + 1)
  have p1 := ulpN_pos T c
  have p2 := ulpN_pos T (c + 1)
  have g1' : (N T (c + 1) : ℚ) ≤ 2 ^ T.p * ulpN T c := by exact_mod_cast g1
  have g2' : (N T (c + 1 + 1) : ℚ) ≤ 2 ^ T.p * ulpN T (c + 1) := by exact_mod_cast g2
  have s1' : (N T (c + 1) : ℚ) = N T c + ulpN T c := by exact_mod_cast s1
  have s2' : (N T (c + 1 + 1) : ℚ) = N T (c + 1) + ulpN T (c + 1) := by exact_mod_cast s2
  have p1' : (0 : ℚ) < ulpN T c := by exact_mod_cast p1
  have p2' : (0 : ℚ) < ulpN T (c + 1) := by exact_mod_cast p2
  have hpow : (2 : ℚ) ^ (T.p + 1) = 2 * 2 ^ T.p := by ring
  rw [hpow] at hDp
  generalize (2 : ℚ) ^ T.p = Q at *
  generalize (ulpN T c : ℚ) = u1 at *
  generalize (ulpN T (c + 1) : ℚ) = u2 at *
  have hVn : (0 : ℚ) ≤ N T c := by positivity
  have hv0 : (0 : ℚ) < N T (c + 1) := by rw [s1']; linarith
  refine closest_pos ha hXpos.le (Or.inr ?_) ?_
  · -- lower
    rw [Nat.add_sub_cancel]
    by_contra hc
    push Not at hc
    have q1 : u1 / 2 ≤ |X - N T (c + 1)| := by linarith
    have q2 : X < N T (c + 1) := by linarith
    have q3 : u1 / 2 * D ≤ X := le_trans (mul_le_mul_of_nonneg_right q1 hD0.le) hd
    nlinarith
  · by_contra hc
    push Not at hc
    have q1 : X - N T (c + 1) ≤ |X - N T (c + 1)| := le_abs_self _
    have q2 : u2 / 2 ≤ X - N T (c + 1) := by linarith
    have q3 : (X - N T (c + 1)) * D ≤ X := le_trans (mul_le_mul_of_nonneg_right q1 hD0.le) hd
    have q4 : (X - N T (c + 1)) * (D - 1) ≤ N T (c + 1) := by linarith
    have q5 : u2 / 2 * (D - 1) ≤ N T (c + 1) :=
      le_trans (mul_le_mul_of_nonneg_right q2 (by nlinarith)) q4
    nlinarith

/-- Nor are they near the middle of two adjacent values. -/
theorem rounded_far {T : FloatType} {b m D c : Nat} {e : Int}
    (h0 : value T b ≠ 0) (hd : maxSigDigits T ≤ D) (h : RoundedDecimal D |value T b| m e)
    (hmid : |(m : ℚ) * 10 ^ e - Mid T c| < (m : ℚ) * 10 ^ e * (5 / 2 ^ T.W)) : False := by
  obtain ⟨h1, -, h3⟩ := h
  replace h1 : 10 ^ (maxSigDigits T - 1) ≤ m := le_trans (Nat.pow_le_pow_right (by norm_num) (by omega)) h1
  clear hd
  rw [value_abs] at h3
  have hu := emin_pos T
  have ha0 : absPat T b ≠ 0 := fun c => h0 (value_zero_iff.mpr c)
  generalize absPat T b = a at *
  have h10 : (0 : ℚ) < 10 ^ e := by positivity
  have hm : (10 : ℚ) ^ (maxSigDigits T - 1) ≤ m := by exact_mod_cast h1
  have hm0 : (0 : ℚ) < m := lt_of_lt_of_le (by positivity) hm
  set x : ℚ := (m : ℚ) * 10 ^ e with hx
  have hx0 : 0 < x := by positivity
  set V : ℚ := N T a * 2 ^ emin T with hV
  -- the distance from the value
  have hd : |x - V| * (2 * 10 ^ (maxSigDigits T - 1)) ≤ x := by
    calc |x - V| * (2 * 10 ^ (maxSigDigits T - 1)) ≤ 10 ^ e / 2 * (2 * 10 ^ (maxSigDigits T - 1)) :=
          mul_le_mul_of_nonneg_right h3 (by positivity)
      _ = 10 ^ (maxSigDigits T - 1) * 10 ^ e := by ring
      _ ≤ x := by rw [hx]; exact mul_le_mul_of_nonneg_right hm h10.le
  -- the value is far from the middle
  have hfar : V ≤ |V - Mid T c| * (2 * 2 ^ T.p) := by
    have hQ : (0 : ℚ) < 2 * 2 ^ T.p := by positivity
    rcases Nat.lt_or_ge c a with hc | hc
    · obtain ⟨a', rfl⟩ : ∃ a', a = a' + 1 := ⟨a - 1, by omega⟩
      have g1 : (N T (a' + 1) : ℚ) ≤ 2 ^ T.p * ulpN T a' := by exact_mod_cast N_succ_le T a'
      have g2 : (N T (a' + 1) : ℚ) = N T a' + ulpN T a' := by exact_mod_cast N_succ T a'
      have g3 : (N T c : ℚ) ≤ N T a' := by exact_mod_cast N_le (T := T) (by omega)
      have g4 : (N T (c + 1) : ℚ) ≤ N T (a' + 1) := by exact_mod_cast N_le (T := T) (by omega)
      have h5 : (ulpN T a' : ℚ) * 2 ^ emin T ≤ 2 * |V - Mid T c| := by
        refine le_trans ?_ (mul_le_mul_of_nonneg_left (le_abs_self _) (by norm_num))
        rw [hV]; unfold Mid
        rw [← sub_mul, ← mul_assoc]
        exact mul_le_mul_of_nonneg_right (by linarith) hu.le
      calc V ≤ 2 ^ T.p * ulpN T a' * 2 ^ emin T := mul_le_mul_of_nonneg_right g1 hu.le
        _ = (ulpN T a' * 2 ^ emin T) * 2 ^ T.p := by ring
        _ ≤ 2 * |V - Mid T c| * 2 ^ T.p := mul_le_mul_of_nonneg_right h5 (by positivity)
        _ = _ := by ring
    · have g1 : (N T (a + 1) : ℚ) ≤ 2 ^ T.p * ulpN T a := by exact_mod_cast N_succ_le T a
      have g2 : (N T (a + 1) : ℚ) = N T a + ulpN T a := by exact_mod_cast N_succ T a
      have g3 : (N T a : ℚ) ≤ N T c := by exact_mod_cast N_le (T := T) (by omega)
      have g4 : (N T (a + 1) : ℚ) ≤ N T (c + 1) := by exact_mod_cast N_le (T := T) (by omega)
      have g5 : (0 : ℚ) < ulpN T a := by exact_mod_cast ulpN_pos T a
      have h5 : (ulpN T a : ℚ) * 2 ^ emin T ≤ 2 * |V - Mid T c| := by
        refine le_trans ?_ (mul_le_mul_of_nonneg_left (neg_le_abs _) (by norm_num))
        rw [hV]; unfold Mid
        rw [neg_sub, ← sub_mul, ← mul_assoc]
        exact mul_le_mul_of_nonneg_right (by linarith) hu.le
      calc V ≤ 2 ^ T.p * ulpN T a * 2 ^ emin T := mul_le_mul_of_nonneg_right (by linarith) hu.le
        _ = (ulpN T a * 2 ^ emin T) * 2 ^ T.p := by ring
        _ ≤ 2 * |V - Mid T c| * 2 ^ T.p := mul_le_mul_of_nonneg_right h5 (by positivity)
        _ = _ := by ring
  have htri : |V - Mid T c| ≤ |x - V| + |x - Mid T c| := by
    have := abs_sub_abs_le_abs_sub (V - Mid T c) (V - x)
    have e1 : (V - Mid T c) - (V - x) = x - Mid T c := by ring
    rw [e1, abs_sub_comm V x] at this
    linarith
  have hVx : x - |x - V| ≤ V := by linarith [le_abs_self (x - V)]
  generalize |x - V| = d1 at *
  generalize |x - Mid T c| = d2 at *
  generalize |V - Mid T c| = d3 at *
  cases T <;> simp only [maxSigDigits, FloatType.p, FloatType.W] at hd hfar hmid <;> norm_num at hd hfar hmid <;> linarith

/-- **C56.** A numeral with the sign of a finite value whose magnitude is that of
the value rounded to at least 17 (`double`) / 9 (`float`) significant digits
identifies the value. -/
theorem C56_enough_digits (T : FloatType) (b : Nat) (hf : IsFinite T b) (h0 : value T b ≠ 0)
    (n : Numeral) (D m : Nat) (e : Int) (hD : maxSigDigits T ≤ D) (hn : n.absValue = m * 10 ^ e)
    (hr : RoundedDecimal D |value T b| m e) (hs : n.isNeg = true ↔ value T b < 0) :
    Identifies T n.value b := by
  have hi := identifies_signed hf (rounded_identifies_abs hf h0 hD hr)
  have hv := value_sign hf h0
  have e1 : (if decide (signBit T b = 1) = true then -((m : ℚ) * 10 ^ e) else (m : ℚ) * 10 ^ e) = n.value := by
    unfold Numeral.value
    rw [hn]
    by_cases c : value T b < 0
    · rw [if_pos (by simpa using hv.mpr c), if_pos (hs.mpr c)]
    · rw [if_neg (by simpa using fun d => c (hv.mp d)), if_neg (fun d => c (hs.mp d))]
  rwa [e1] at hi

/-- **C56.** Hence `atof` reads such a numeral of at most 19 / 9 digits - as printed
by `printf("%.17g")`, `("%.19g")` / `("%.9g")` or anything else that rounds correctly
to so many digits - as that very value, with status success, consuming all of it,
leaving `errno` alone and never asking the fallback; the exceptions are: the
numeral is below the least subnormal number, or (`float`) has digits below `10^-50`,
or the value is a power of two and the numeral is below it. -/
theorem C56_reads_back (T : FloatType) (fb : Fallback) (errno : Nat) (mem : List Nat) (str : Nat)
    (n : Numeral) (h : NumeralAt mem str n) (b : Nat) (hf : IsFinite T b) (h0 : value T b ≠ 0)
    (D m : Nat) (e : Int) (hD : maxSigDigits T ≤ D) (hD' : D ≤ T.digits10) (hn : n.absValue = m * 10 ^ e)
    (hr : RoundedDecimal D |value T b| m e) (hs : n.isNeg = true ↔ value T b < 0)
    (hlo : 2 ^ emin T ≤ n.absValue) (he : T = .float → -50 ≤ e)
    (hp : (∃ i : Int, |value T b| = 2 ^ i) → |value T b| ≤ n.absValue) :
    atof T fb errno mem str = .ok ⟨b, .success, str + n.text.length, errno, false⟩ := by
  have hid := C56_enough_digits T b hf h0 n D m e hD hn hr hs
  have habs := abs_value_num n
  obtain ⟨m', e', hm', hn', he'⟩ : ∃ (m' : Nat) (e' : Int), m' < 10 ^ T.digits10 ∧
      n.absValue = m' * 10 ^ e' ∧ (T = .float → -50 ≤ e') := by
    rcases hr.hi.lt_or_eq with hlt | heq
    · exact ⟨m, e, lt_of_lt_of_le hlt (Nat.pow_le_pow_right (by norm_num) hD'), hn, he⟩
    · refine ⟨1, e + D, by cases T <;> decide, ?_, fun c => ?_⟩
      · rw [hn, heq, zpow_add₀ (by norm_num), zpow_natCast]; push_cast; ring
      · have := he c; omega
  obtain ⟨v, acc, k1, k2, k3, -⟩ := krosh_short (T := T) h hm' hn' he' hlo (by rw [← habs]; exact hid.2.1)
  obtain ⟨r, r1, r2, r3⟩ := atof_numeral (fb := fb) (errno := errno) h k1
  cases acc with
  | false =>
    obtain ⟨c, -, c2, -⟩ := k3 rfl
    rw [hn] at c2
    exact (rounded_far h0 hD hr c2).elim
  | true =>
    obtain ⟨b', b0, b1, b2⟩ := k2 rfl
    have hbb : b' = b := identifies_roundsTo_unique hid h0 (identifies_roundsTo b1 b0)
    subst hbb
    rcases b2 with ⟨b2, -⟩ | ⟨-, -, i, -, i2, i3, -⟩
    · rw [r1, r2 rfl, b2]
    · have := hp ⟨i, i2⟩
      rw [habs, ← i2] at i3
      linarith

theorem near_of_nat {m A B : Nat} (hA : 0 < A) (hB : 0 < B) (h1 : 2 * m * B ≤ 2 * A + B)
    (h2 : 2 * A ≤ 2 * m * B + B) : |(m : ℚ) * (A : ℚ)⁻¹ - (B : ℚ)⁻¹| ≤ (A : ℚ)⁻¹ / 2 := by
  have hA' : (0 : ℚ) < A := by exact_mod_cast hA
  have hB' : (0 : ℚ) < B := by exact_mod_cast hB
  have h1' : 2 * (m : ℚ) * B ≤ 2 * A + B := by exact_mod_cast h1
  have h2' : 2 * (A : ℚ) ≤ 2 * m * B + B := by exact_mod_cast h2
  have e1 : (m : ℚ) * (A : ℚ)⁻¹ - (B : ℚ)⁻¹ = (2 * m * B - 2 * A) / (2 * A * B) := by
    field_simp
  have e2 : (A : ℚ)⁻¹ / 2 = B / (2 * A * B) := by field_simp
  rw [e1, e2, abs_div, abs_of_pos (show (0 : ℚ) < 2 * A * B by positivity)]
  apply div_le_div_of_nonneg_right _ (by positivity)
  rw [abs_le]
  constructor <;> linarith

/-- "4.9406564584124654e-324" -/
def leastSeventeen : Numeral := ⟨none, [4], some [9,4,0,6,5,6,4,5,8,4,1,2,4,6,5,4], some ⟨false, some true, [3, 2, 4]⟩⟩

theorem leastSeventeen_abs : leastSeventeen.absValue = (49406564584124654 : Nat) * 10 ^ (-340 : Int) := by
  simp only [leastSeventeen, Numeral.absValue, Numeral.fracDigits, Numeral.expValue, ExpPart.value, Option.getD_some]
  rw [show digitsVal ([4] ++ [9,4,0,6,5,6,4,5,8,4,1,2,4,6,5,4]) = 49406564584124654 by decide +kernel]
  norm_num [digitsVal]

/-- **C56, the exception at the lower end is real.** The least `double`, printed
with 17 digits, is read as zero with status underflow. -/
theorem C56_refuted (fb : Fallback) (errno : Nat) :
    IsFinite .double 1 ∧ value .double 1 ≠ 0 ∧
    RoundedDecimal 17 |value .double 1| 49406564584124654 (-340) ∧
    atof .double fb errno (leastSeventeen.text ++ [0]) 0 = .ok ⟨0, .underflow, 23, errno, false⟩ := by
  have hv : value .double 1 = ((2 ^ 1074 : Nat) : ℚ)⁻¹ := by
    rw [value_of_lt (by decide), show N .double 1 = 1 by decide]
    rw [show emin .double = -(1074 : Nat) by decide, zpow_neg, zpow_natCast]
    push_cast; ring
  have hpos : (0 : ℚ) < ((2 ^ 1074 : Nat) : ℚ)⁻¹ := by
    rw [inv_pos]; exact_mod_cast Nat.two_pow_pos 1074
  refine ⟨⟨by decide, by decide⟩, ?_, ⟨by decide, by decide, ?_⟩, ?_⟩
  · rw [hv]; exact hpos.ne'
  · rw [hv, abs_of_pos hpos]
    have e : (10 : ℚ) ^ (-340 : Int) = ((10 ^ 340 : Nat) : ℚ)⁻¹ := by
      rw [show (-340 : Int) = -((340 : Nat) : Int) by decide, zpow_neg, zpow_natCast]
      push_cast; rfl
    rw [e]
    exact near_of_nat (Nat.pow_pos (by norm_num)) (Nat.two_pow_pos _) (by decide +kernel) (by decide +kernel)
  · have : krosh .double (leastSeventeen.text ++ [0]) 0 = .ok ⟨0, 23, .underflow, true⟩ := by decide +kernel
    rw [atof_of_krosh this (by decide)]; rfl

/-- "0.10000000000000001" -/
def tenth17 : Numeral := ⟨none, [0], some [1,0,0,0,0,0,0,0,0,0,0,0,0,0,0,0,1], none⟩

/-- The hypotheses of C56 are met: 0.1 printed with 17 digits. -/
example (fb : Fallback) : atof .double fb 0 (tenth17.text ++ [0]) 0 =
    .ok ⟨0x3fb999999999999a, .success, 0 + tenth17.text.length, 0, false⟩ := by
  have hv : value .double 0x3fb999999999999a = 3602879701896397 / 2 ^ 55 := by
    norm_num [value, signBit, mag, expField, fracField, emin, FloatType.W, FloatType.p,
      FloatType.minExp]
  have hn : tenth17.absValue = (10000000000000001 : Nat) * 10 ^ (-17 : Int) := by
    norm_num [tenth17, Numeral.absValue, Numeral.fracDigits, Numeral.expValue, digitsVal]
  refine C56_reads_back .double fb 0 _ 0 tenth17 ?_ 0x3fb999999999999a ⟨by decide, by decide⟩ ?_
    17 10000000000000001 (-17) (by decide) (by decide) hn ?_ ?_ ?_ (by simp) ?_
  · exact ⟨⟨by decide, by simp [tenth17]⟩, ⟨0, [], rfl, ⟨by decide, by decide, by decide⟩⟩, by decide,
      by simp [tenth17], by simp [tenth17]⟩
  · rw [hv]; norm_num
  · refine ⟨by decide, by decide, ?_⟩
    rw [hv, abs_of_pos (a := (3602879701896397 / 2 ^ 55 : ℚ)) (by norm_num), abs_le]
    constructor <;> norm_num
  · rw [hv]; norm_num [tenth17, Numeral.isNeg]
  · rw [hn]
    refine le_trans (zpow_le_zpow_right₀ (by norm_num) (show emin .double ≤ -10 by decide)) ?_
    norm_num
  · rintro ⟨i, hi⟩
    exfalso
    rw [hv, abs_of_pos (by norm_num)] at hi
    have h1 : (2 : ℚ) ^ (-4 : ℤ) < 2 ^ i := by rw [← hi]; norm_num
    have h2 : (2 : ℚ) ^ i < 2 ^ (-3 : ℤ) := by rw [← hi]; norm_num
    have h1' := (zpow_lt_zpow_iff_right₀ (by norm_num)).mp h1
    have h2' := (zpow_lt_zpow_iff_right₀ (by norm_num)).mp h2
    omega

end Floaxie
