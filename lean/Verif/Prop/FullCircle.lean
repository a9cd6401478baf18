import Verif.Prop.Shortest
import Verif.Prop.RoundTrip

/-!
# Decimal to binary and back (C49)
-/

namespace Floaxie

open FloatType Spec

theorem wellInside_identifies {T : FloatType} {b : Nat} {y : ℚ} (h : AboveLeastNormal T b)
    (hy : WellInside T b y) : Identifies T y (absPat T b) := by
  obtain ⟨hf, hn⟩ := h
  rw [absPat_mod] at hn
  have hal := absPat_lt_posInf hf
  have hu := emin_pos T
  have hp0 : 0 < 2 ^ (T.p - 1) := by positivity
  obtain ⟨q1, q2⟩ := mids_eq hf
  obtain ⟨y1, y2⟩ := hy
  have hlt : midBelow T b < midAbove T b := by
    rw [q1, q2]
    apply mul_lt_mul_of_pos_right _ hu
    have h1 : N T (absPat T b - 1) < N T (absPat T b) := by
      have := N_succ T (absPat T b - 1)
      rw [Nat.sub_add_cancel (by omega)] at this
      have h3 := ulpN_pos T (absPat T b - 1)
      omega
    have h2 : N T (absPat T b) ≤ N T (absPat T b + 1) := N_le (by omega)
    have h1' : (N T (absPat T b - 1) : ℚ) < N T (absPat T b) := by exact_mod_cast h1
    have h2' : (N T (absPat T b) : ℚ) ≤ N T (absPat T b + 1) := by exact_mod_cast h2
    linarith
  have hc : 0 < (midAbove T b - midBelow T b) / cutOff T := by
    apply div_pos (by linarith)
    cases T <;> norm_num [cutOff]
  have z1 : midBelow T b < y := by linarith
  have z2 : y < midAbove T b := by linarith
  rw [q1] at z1
  rw [q2] at z2
  have e : y = y / 2 ^ emin T * 2 ^ emin T := by field_simp
  have z1' : (N T (absPat T b - 1) + N T (absPat T b) : ℚ) / 2 < y / 2 ^ emin T := by
    rw [lt_div_iff₀ hu]; exact z1
  have z2' : y / 2 ^ emin T < (N T (absPat T b) + N T (absPat T b + 1) : ℚ) / 2 := by
    rw [div_lt_iff₀ hu]; exact z2
  rw [e]
  have hN : (0 : ℚ) ≤ N T (absPat T b - 1) := by positivity
  have hN' : (0 : ℚ) ≤ N T (absPat T b) := by positivity
  refine closest_pos hal (by linarith) (Or.inr (by linarith)) (by linarith)

/-- Being well inside the interval of a normal number above the least one, a
number is larger than the least normal one. -/
theorem wellInside_ge {T : FloatType} {b : Nat} {y : ℚ} (h : AboveLeastNormal T b)
    (hy : WellInside T b y) : 2 ^ (T.p - 1) * 2 ^ emin T ≤ y := by
  have hi := wellInside_identifies h hy
  obtain ⟨hf, hn⟩ := h
  rw [absPat_mod] at hn
  have hu := emin_pos T
  have hp0 : 0 < 2 ^ (T.p - 1) := by positivity
  obtain ⟨m1, -⟩ := identifies_mids (absPat_lt_posInf hf) (by omega) hi
  have e1 : N T (2 ^ (T.p - 1)) = 2 ^ (T.p - 1) := by cases T <;> decide
  have h1 : N T (2 ^ (T.p - 1)) ≤ N T (absPat T b - 1) := N_le (by omega)
  have h2 : N T (2 ^ (T.p - 1)) ≤ N T (absPat T b) := N_le (by omega)
  rw [e1] at h1 h2
  have h1' : (2 : ℚ) ^ (T.p - 1) ≤ N T (absPat T b - 1) := by exact_mod_cast h1
  have h2' : (2 : ℚ) ^ (T.p - 1) ≤ N T (absPat T b) := by exact_mod_cast h2
  refine le_trans (mul_le_mul_of_nonneg_right ?_ hu.le) m1.le
  linarith

theorem value_ne_zero_above {T : FloatType} {b : Nat} (h : AboveLeastNormal T b) :
    value T b ≠ 0 := by
  intro h0
  have h1 := h.2
  rw [absPat_mod, value_zero_iff.mp h0] at h1
  exact absurd h1 (Nat.not_lt_zero _)

theorem wellInside_identifies_value {T : FloatType} {b : Nat} (h : AboveLeastNormal T b)
    {n : Numeral} (hs : 0 < n.value * value T b) (hy : WellInside T b n.absValue) :
    Identifies T n.value b := by
  have hi := identifies_signed h.1 (wellInside_identifies h hy)
  have h0 := value_ne_zero_above h
  obtain ⟨i1, i2⟩ := identifies_sign hi h0
  have hv := value_sign h.1 h0
  have hnn := absValue_nonneg n
  have e : (if decide (signBit T b = 1) = true then -n.absValue else n.absValue) = n.value := by
    unfold Numeral.value at hs ⊢
    by_cases hb : value T b < 0
    · have hb' := hv.mpr hb
      rw [if_pos (by simpa using hb')]
      split_ifs at hs ⊢ with c
      · rfl
      · exfalso; nlinarith
    · have hb' : ¬ signBit T b = 1 := fun c => hb (hv.mp c)
      rw [if_neg (by simpa using hb')]
      split_ifs at hs ⊢ with c
      · exfalso; nlinarith
      · rfl
  rwa [e] at hi

/-- Well inside the interval, a number is not near the middle of two adjacent values. -/
theorem wellInside_far {T : FloatType} {b c : Nat} {x : ℚ} (h : AboveLeastNormal T b)
    (hy : WellInside T b x) (hc : |x - Mid T c| < x * (5 / 2 ^ T.W)) : False := by
  have hge := wellInside_ge h hy
  obtain ⟨hf, hn⟩ := h
  rw [absPat_mod] at hn
  have hu := emin_pos T
  have hp0 : 0 < 2 ^ (T.p - 1) := by positivity
  obtain ⟨q1, q2⟩ := mids_eq hf
  obtain ⟨y1, y2⟩ := hy
  generalize absPat T b = a at *
  obtain ⟨a, rfl⟩ : ∃ a', a = a' + 1 := ⟨a - 1, by omega⟩
  rw [Nat.add_sub_cancel] at q1
  have e1 : midBelow T b = Mid T a := q1
  have e2 : midAbove T b = Mid T (a + 1) := q2
  have g1 : (N T (a + 1) : ℚ) = N T a + ulpN T a := by exact_mod_cast N_succ T a
  have g2 : (N T (a + 1 + 1) : ℚ) = N T (a + 1) + ulpN T (a + 1) := by exact_mod_cast N_succ T (a + 1)
  have g3 : (ulpN T a : ℚ) ≤ ulpN T (a + 1) := by exact_mod_cast ulpN_mono (T := T) (Nat.le_succ a)
  have g4 : (ulpN T (a + 1) : ℚ) ≤ 2 * ulpN T a := by
    have := ulpN_pred (T := T) (a := a + 1)
    rw [Nat.add_sub_cancel] at this
    exact_mod_cast this
  have g5 : (N T (a + 1) : ℚ) ≤ 2 ^ T.p * ulpN T a := by exact_mod_cast N_succ_le_ulp T a
  have hx0 : 0 < x := lt_of_lt_of_le (by positivity) hge
  have hC : (0 : ℚ) < cutOff T := by cases T <;> norm_num [cutOff]
  -- the length of the interval and the size of the number
  have hL : (ulpN T a : ℚ) * 2 ^ emin T ≤ midAbove T b - midBelow T b := by
    rw [q1, q2, ← sub_mul]
    exact mul_le_mul_of_nonneg_right (by linarith) hu.le
  have hL0 : 0 < midAbove T b - midBelow T b := by
    have : (0 : ℚ) < ulpN T a := by exact_mod_cast ulpN_pos T a
    exact lt_of_lt_of_le (by positivity) hL
  have hx : x ≤ (2 ^ T.p + 1) * (ulpN T a * 2 ^ emin T) := by
    have h1 : x ≤ midAbove T b := le_trans y2 (by
      have := div_pos hL0 hC
      linarith)
    refine le_trans h1 ?_
    rw [q2, ← mul_assoc]
    exact mul_le_mul_of_nonneg_right (by linarith) hu.le
  have hkey : x * (5 / 2 ^ T.W) ≤ (midAbove T b - midBelow T b) / cutOff T := by
    rw [le_div_iff₀ hC]
    have h1 : (2 ^ T.p + 1 : ℚ) * (5 / 2 ^ T.W) * cutOff T ≤ 1 := by
      cases T <;> norm_num [cutOff, FloatType.p, FloatType.W]
    have h2 : (0 : ℚ) < 5 / 2 ^ T.W := by positivity
    calc x * (5 / 2 ^ T.W) * cutOff T
        ≤ (2 ^ T.p + 1) * (ulpN T a * 2 ^ emin T) * (5 / 2 ^ T.W) * cutOff T := by
          apply mul_le_mul_of_nonneg_right _ hC.le
          exact mul_le_mul_of_nonneg_right hx h2.le
      _ = (2 ^ T.p + 1 : ℚ) * (5 / 2 ^ T.W) * cutOff T * (ulpN T a * 2 ^ emin T) := by ring
      _ ≤ 1 * (ulpN T a * 2 ^ emin T) := mul_le_mul_of_nonneg_right h1 (by positivity)
      _ ≤ _ := by rw [one_mul]; exact hL
  obtain ⟨c1, c2⟩ := abs_lt.mp hc
  have hmono : ∀ {i j : Nat}, i ≤ j → Mid T i ≤ Mid T j := by
    intro i j hij
    unfold Mid
    apply mul_le_mul_of_nonneg_right _ hu.le
    have k1 : (N T i : ℚ) ≤ N T j := by exact_mod_cast N_le (T := T) hij
    have k2 : (N T (i + 1) : ℚ) ≤ N T (j + 1) := by exact_mod_cast N_le (T := T) (Nat.succ_le_succ hij)
    linarith
  rcases Nat.lt_or_ge a c with hac | hac
  · have := hmono (show a + 1 ≤ c from hac)
    rw [← e2] at this
    linarith
  · have := hmono hac
    rw [← e1] at this
    linarith

/-- **C49.** Decimal - binary - decimal.  Let the numeral `n` have a value of at
most 15 (`double`) / 6 (`float`) significant digits that lies well inside the
rounding interval of a normal number `b` above the least one.  Then `atof` reads
it as `b`, with status success, without consulting the fallback and leaving `errno`
alone, and `ftoa` prints, for `b`, a numeral of exactly the value of `n` - unless `b`
is a power of two that `n` is below of. -/
theorem C49_full_circle (T : FloatType) (fb : Fallback) (errno : Nat) (mem : List Nat) (str : Nat)
    (n : Numeral) (h : NumeralAt mem str n) (d : Nat) (j : Int) (hd : d < 10 ^ decimalDigits T)
    (hdj : n.absValue = d * 10 ^ j) (b : Nat) (hb : AboveLeastNormal T b)
    (hs : 0 < n.value * value T b) (hw : WellInside T b n.absValue)
    (hp : (∃ i : Int, |value T b| = 2 ^ i) → |value T b| ≤ n.absValue) :
    ∃ n' : Numeral, atof T fb errno mem str = .ok ⟨b, .success, str + n.text.length, errno, false⟩ ∧
      Prints T b n'.text ∧ n'.value = n.value := by
  have h0 := value_ne_zero_above hb
  have hid := wellInside_identifies_value hb hs hw
  have hge := wellInside_ge hb hw
  have hnn := absValue_nonneg n
  have habs : |n.value| = n.absValue := by
    unfold Numeral.value
    split_ifs
    · rw [abs_neg, abs_of_nonneg hnn]
    · rw [abs_of_nonneg hnn]
  have hu := emin_pos T
  have hj : T = .float → -50 ≤ j := by
    rintro rfl
    by_contra hc
    push Not at hc
    have h1 : (10 : ℚ) ^ j ≤ 10 ^ (-51 : ℤ) := zpow_le_zpow_right₀ (by norm_num) (by omega)
    have h2 : (d : ℚ) ≤ 10 ^ 6 := by
      have : d ≤ 10 ^ 6 := by simp [decimalDigits] at hd ⊢; omega
      exact_mod_cast this
    have h3 : n.absValue ≤ 10 ^ 6 * 10 ^ (-51 : ℤ) := by
      rw [hdj]; exact mul_le_mul h2 h1 (by positivity) (by positivity)
    have h4 := le_trans hge h3
    norm_num [emin, FloatType.p, FloatType.minExp] at h4
  obtain ⟨v, acc, k1, k2, k3, -⟩ := krosh_short (T := T) h (lt_of_lt_of_le hd (by cases T <;> decide)) hdj hj
    (le_trans (by
      have : (1 : ℚ) ≤ 2 ^ (T.p - 1) := one_le_pow₀ (by norm_num)
      nlinarith) hge)
    (by rw [← habs]; exact hid.2.1)
  obtain ⟨r, r1, r2, -⟩ := atof_numeral (fb := fb) (errno := errno) h k1
  have hres : atof T fb errno mem str = .ok ⟨b, .success, str + n.text.length, errno, false⟩ := by
    cases acc with
    | false =>
      obtain ⟨c, -, c2, -⟩ := k3 rfl
      exact (wellInside_far hb hw c2).elim
    | true =>
      obtain ⟨b', b0, b1, b2⟩ := k2 rfl
      have hbb : b' = b := identifies_roundsTo_unique hid h0 (identifies_roundsTo b1 b0)
      subst hbb
      rcases b2 with ⟨b2, -⟩ | ⟨-, -, i, -, i2, i3, -⟩
      · rw [r1, r2 rfl, b2]
      · have := hp ⟨i, i2⟩
        rw [habs, ← i2] at i3
        linarith
  rw [hdj] at hw
  obtain ⟨n', p1, p2⟩ := C47_short_decimal T b hb d j hd (safelyInside_of_wellInside hb hw)
  refine ⟨n', hres, p1, ?_⟩
  have hid' := prints_identifies T b hb.1 n' p1
  obtain ⟨i1, i2⟩ := identifies_sign hid h0
  obtain ⟨i1', i2'⟩ := identifies_sign hid' h0
  have hnn' := absValue_nonneg n'
  have habs' : |n'.value| = n'.absValue := by
    unfold Numeral.value
    split_ifs
    · rw [abs_neg, abs_of_nonneg hnn']
    · rw [abs_of_nonneg hnn']
  have he : |n'.value| = |n.value| := by rw [habs, habs', p2, hdj]
  rcases abs_eq_abs.mp he with e | e
  · exact e
  · exfalso
    by_cases hv : value T b < 0
    · have := i1.mp hv; have := i1'.mp hv; linarith
    · have h1 : ¬ n.value < 0 := fun c => hv (i1.mpr c)
      have h2 : ¬ n'.value < 0 := fun c => hv (i1'.mpr c)
      push Not at h1 h2
      have : n.value = 0 := by linarith
      exact i2 this

/-- The hypotheses of C49 are met by "-0.1" and the `float` 0xBDCCCCCD. -/
example (fb : Fallback) :
    ∃ n' : Numeral, atof .float fb 0 (minusTenth.text ++ [0]) 0 =
        .ok ⟨0xBDCCCCCD, .success, 0 + minusTenth.text.length, 0, false⟩ ∧
      Prints .float 0xBDCCCCCD n'.text ∧ n'.value = minusTenth.value := by
  have hv : value .float 0xBDCCCCCD = -(13421773 / 2 ^ 27) := by
    norm_num [value, signBit, mag, expField, fracField, emin, FloatType.W, FloatType.p,
      FloatType.minExp]
  refine C49_full_circle .float fb 0 _ 0 minusTenth minusTenth_at 1 (-1) (by decide) minusTenth_abs
    0xBDCCCCCD ⟨⟨by decide, by decide⟩, by decide⟩ ?_ ?_ ?_
  · rw [hv]
    norm_num [minusTenth, Numeral.value, Numeral.isNeg, Numeral.absValue, Numeral.fracDigits,
      Numeral.expValue, digitsVal]
  · rw [minusTenth_abs]
    norm_num [WellInside, midBelow, midAbove, mag, expField, fracField, emin, cutOff, FloatType.W,
      FloatType.p, FloatType.minExp]
  · rintro ⟨i, hi⟩
    exfalso
    rw [hv, abs_neg, abs_of_pos (by norm_num)] at hi
    have h1 : (2 : ℚ) ^ (-4 : ℤ) < 2 ^ i := by rw [← hi]; norm_num
    have h2 : (2 : ℚ) ^ i < 2 ^ (-3 : ℤ) := by rw [← hi]; norm_num
    have h1' := (zpow_lt_zpow_iff_right₀ (by norm_num)).mp h1
    have h2' := (zpow_lt_zpow_iff_right₀ (by norm_num)).mp h2
    omega

end Floaxie
