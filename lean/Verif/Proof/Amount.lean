import Mathlib.Algebra.Ring.Parity
import Verif.Spec.Amount
import Verif.Prop.FullCircle

/-! # Decimals with few digits after the point are far from all midpoints -/

namespace Floaxie

open Spec FloatType

/-- Units of `2^emin` in one. -/
theorem emin_one (T : FloatType) : ((2 : ℚ) ^ (-emin T).toNat) * 2 ^ emin T = 1 := by
  rw [← zpow_natCast, ← zpow_add₀ (by norm_num)]
  cases T <;> rfl

theorem ulpN_exp (T : FloatType) (a : Nat) : ∃ i, ulpN T a = 2 ^ i := ⟨_, rfl⟩

/-- A number with `k` decimals is at least `ulp / (2 * 5^k)` away from a midpoint. -/
theorem amount_far {T : FloatType} {a d k : Nat} (hu : 2 ^ k * ulpN T a ≤ 2 ^ (-emin T).toNat) :
    (ulpN T a : ℚ) * 2 ^ emin T ≤ |(d : ℚ) / 10 ^ k - Mid T a| * (2 * 5 ^ k) := by
  obtain ⟨i, hi⟩ := ulpN_exp T a
  have h1 := emin_one T
  have hm := emin_pos T
  rw [hi, ← pow_add, Nat.pow_le_pow_iff_right (by norm_num)] at hu
  obtain ⟨j, hj⟩ : ∃ j, (-emin T).toNat = k + i + j := ⟨_, (Nat.add_sub_cancel' hu).symm⟩
  have hMid : Mid T a = ((2 * sigN T a + 1) * 2 ^ i) / 2 * 2 ^ emin T := by
    unfold Mid
    rw [N_succ, N_eq, hi]
    push_cast
    ring
  have e : (2 : ℚ) ^ emin T = 1 / 2 ^ (k + i + j) := by
    rw [hj] at h1
    rw [eq_div_iff (by positivity), mul_comm]
    exact h1
  rw [hMid, hi, e]
  have ex : (d : ℚ) / 10 ^ k - ((2 * sigN T a + 1) * 2 ^ i) / 2 * (1 / 2 ^ (k + i + j)) =
      ((2 * (d * 2 ^ j) - (2 * sigN T a + 1) * 5 ^ k : ℤ) : ℚ) * (1 / (2 * 5 ^ k) * (1 / 2 ^ (k + j))) := by
    push_cast
    rw [show (10 : ℚ) ^ k = 2 ^ k * 5 ^ k by rw [← mul_pow]; norm_num]
    rw [pow_add, pow_add, pow_add]
    field_simp
  have hodd : (2 * (d * 2 ^ j) - (2 * sigN T a + 1) * 5 ^ k : ℤ) ≠ 0 := by
    intro h0
    have h5 : Odd ((5 : ℤ) ^ k) := Odd.pow (by decide)
    obtain ⟨c, hc⟩ := h5
    rw [hc] at h0
    have : (2 : ℤ) ∣ 1 := ⟨d * 2 ^ j - (sigN T a + c + 2 * sigN T a * c), by linarith⟩
    omega
  have habs : (1 : ℚ) ≤ |((2 * (d * 2 ^ j) - (2 * sigN T a + 1) * 5 ^ k : ℤ) : ℚ)| := by
    rw [← Int.cast_abs]
    exact_mod_cast Int.one_le_abs hodd
  rw [ex, abs_mul, abs_of_pos (show (0 : ℚ) < 1 / (2 * 5 ^ k) * (1 / 2 ^ (k + j)) by positivity)]
  generalize |((2 * (d * 2 ^ j) - (2 * sigN T a + 1) * 5 ^ k : ℤ) : ℚ)| = A at *
  have : A * (1 / (2 * 5 ^ k) * (1 / 2 ^ (k + j))) * (2 * 5 ^ k) = A * (1 / 2 ^ (k + j)) := by field_simp
  rw [this]
  have e2 : ((2 ^ i : ℕ) : ℚ) * (1 / 2 ^ (k + i + j)) = 1 * (1 / 2 ^ (k + j)) := by
    push_cast
    rw [pow_add, pow_add, pow_add]
    field_simp
  rw [e2]
  exact mul_le_mul_of_nonneg_right habs (by positivity)

theorem sigN_ge {T : FloatType} {a : Nat} (h : 2 ^ (T.p - 1) ≤ a) : 2 ^ (T.p - 1) ≤ sigN T a := by
  have hp0 : 0 < 2 ^ (T.p - 1) := by positivity
  unfold sigN
  rw [if_neg (by
    intro h0
    have := (Nat.div_eq_zero_iff_lt hp0).mp h0
    omega)]
  omega

/-- The unit of the data near an amount is small. -/
theorem amount_ulp {T : FloatType} {a d k : Nat} (hk : k ≤ 3) (hd : d < 10 ^ decimalDigits T)
    (ha : (N T a : ℚ) * 2 ^ emin T ≤ 2 * (d / 10 ^ k)) :
    2 ^ k * ulpN T a ≤ 2 ^ (-emin T).toNat := by
  have hp0 : 0 < 2 ^ (T.p - 1) := by positivity
  by_cases hn : 2 ^ (T.p - 1) ≤ a
  · have h1 := emin_one T
    have hm := emin_pos T
    have hs := sigN_ge hn
    have hs' : (2 : ℚ) ^ (T.p - 1) ≤ sigN T a := by exact_mod_cast hs
    have hU : (0 : ℚ) < ulpN T a := by exact_mod_cast ulpN_pos T a
    rw [N_eq] at ha
    push_cast at ha
    have hd' : (d : ℚ) < 10 ^ decimalDigits T := by exact_mod_cast hd
    have h10 : (0 : ℚ) < 10 ^ k := by positivity
    have h3 : 2 ^ (T.p - 1) * ((ulpN T a : ℚ) * 2 ^ emin T) ≤ 2 * (d / 10 ^ k) := by
      refine le_trans ?_ ha
      rw [mul_assoc]
      exact mul_le_mul_of_nonneg_right hs' (by positivity)
    have h4 : 2 ^ (T.p - 1) * ((ulpN T a : ℚ) * 2 ^ emin T * 10 ^ k) ≤ 2 * d := by
      have := mul_le_mul_of_nonneg_right h3 h10.le
      rw [mul_assoc 2, div_mul_cancel₀ _ h10.ne'] at this
      linarith
    have h5 : (2 : ℚ) * d ≤ 2 ^ (T.p - 1) * 1 := by
      have : (2 : ℚ) * 10 ^ decimalDigits T ≤ 2 ^ (T.p - 1) * 1 := by
        cases T <;> norm_num [decimalDigits, FloatType.p]
      linarith
    have h6 : (ulpN T a : ℚ) * 2 ^ emin T * 10 ^ k ≤ 1 :=
      le_of_mul_le_mul_left (le_trans h4 h5) (by positivity)
    have h7 : (2 : ℚ) ^ k ≤ 10 ^ k := pow_le_pow_left₀ (by norm_num) (by norm_num) k
    have h8 : (2 ^ k * ulpN T a : ℚ) * 2 ^ emin T ≤ 2 ^ (-emin T).toNat * 2 ^ emin T := by
      rw [h1]
      refine le_trans ?_ h6
      have : (ulpN T a : ℚ) * 2 ^ emin T * 2 ^ k ≤ (ulpN T a : ℚ) * 2 ^ emin T * 10 ^ k :=
        mul_le_mul_of_nonneg_left h7 (by positivity)
      linarith
    have h9 := le_of_mul_le_mul_right h8 hm
    exact_mod_cast h9
  · have : ulpN T a = 1 := by
      unfold ulpN
      rw [Nat.div_eq_of_lt (by omega), Nat.zero_sub, pow_zero]
    rw [this, mul_one]
    exact Nat.pow_le_pow_right (by norm_num) (by cases T <;> simp [emin, FloatType.minExp, FloatType.p] <;> omega)

theorem Mid_ge (T : FloatType) (a : Nat) : (N T a : ℚ) * 2 ^ emin T ≤ Mid T a := by
  have hm := emin_pos T
  unfold Mid
  have : (N T a : ℚ) ≤ N T (a + 1) := by exact_mod_cast N_le (by omega)
  exact mul_le_mul_of_nonneg_right (by linarith) hm.le

theorem Mid_le (T : FloatType) (a : Nat) : Mid T a ≤ 2 ^ T.p * (ulpN T a * 2 ^ emin T) := by
  have hm := emin_pos T
  unfold Mid
  have h1 : (N T a : ℚ) ≤ N T (a + 1) := by exact_mod_cast N_le (by omega)
  have h2 : N T (a + 1) ≤ 2 ^ T.p * ulpN T a := by
    rw [N_succ, N_eq]
    have := sigN_lt T a
    calc sigN T a * ulpN T a + ulpN T a = (sigN T a + 1) * ulpN T a := by ring
      _ ≤ _ := Nat.mul_le_mul_right _ (by omega)
  have h2' : (N T (a + 1) : ℚ) ≤ 2 ^ T.p * ulpN T a := by exact_mod_cast h2
  rw [← mul_assoc]
  exact mul_le_mul_of_nonneg_right (by linarith) hm.le

/-- No midpoint is so near that the scaled product could hit it. -/
theorem amount_no_tie {T : FloatType} {a d k : Nat} (hk : k ≤ amountPlaces T) (h0 : 0 < d)
    (hd : d < 10 ^ decimalDigits T)
    (h : |(d : ℚ) / 10 ^ k - Mid T a| < d / 10 ^ k * (5 / 2 ^ T.W)) : False := by
  have hm := emin_pos T
  have hx : (0 : ℚ) < d / 10 ^ k := by
    have : (0 : ℚ) < d := by exact_mod_cast h0
    positivity
  have hk3 : k ≤ 3 := by cases T <;> simp [amountPlaces] at hk <;> omega
  have hc : (5 : ℚ) / 2 ^ T.W ≤ 1 / 2 ^ 29 := by cases T <;> norm_num [FloatType.W]
  obtain ⟨l1, l2⟩ := abs_lt.mp h
  have hMle : Mid T a ≤ 2 * (d / 10 ^ k) := by
    have : (d : ℚ) / 10 ^ k * (5 / 2 ^ T.W) ≤ d / 10 ^ k * 1 :=
      mul_le_mul_of_nonneg_left (le_trans hc (by norm_num)) hx.le
    linarith
  have hfar := amount_far (d := d) (amount_ulp hk3 hd (le_trans (Mid_ge T a) hMle))
  have h5 : (5 : ℚ) ^ k ≤ 5 ^ amountPlaces T := pow_le_pow_right₀ (by norm_num) hk
  have hM := Mid_le T a
  generalize (d : ℚ) / 10 ^ k = x at *
  generalize (ulpN T a : ℚ) * 2 ^ emin T = U at *
  generalize Mid T a = M at *
  have h6 : U ≤ x * (5 / 2 ^ T.W) * (2 * 5 ^ amountPlaces T) := by
    refine le_trans hfar ?_
    exact mul_le_mul h.le (by linarith) (by positivity) (by positivity)
  cases T <;> norm_num [FloatType.W, FloatType.p, amountPlaces] at * <;> linarith

/-- An amount below a power of two does not round to it. -/
theorem amount_no_carry {T : FloatType} {a d k : Nat} (hk : k ≤ 3) (hd : d < 10 ^ decimalDigits T)
    (ha : 2 ^ (T.p - 1) < a) {j : Int} (hj : (N T a : ℚ) * 2 ^ emin T = 2 ^ j)
    (hlt : (d : ℚ) / 10 ^ k < 2 ^ j)
    (hlo : (N T (a - 1) + N T a : ℚ) / 2 * 2 ^ emin T < d / 10 ^ k) : False := by
  have hm := emin_pos T
  have hj0 : (0 : ℚ) < 2 ^ j := by positivity
  have h10 : (0 : ℚ) < 10 ^ k := by positivity
  have hp0 : 0 < 2 ^ (T.p - 1) := by positivity
  obtain ⟨g1, -, -, -, -⟩ := normal_gaps ha
  have g1' : (N T a : ℚ) = N T (a - 1) + ulpN T (a - 1) := by exact_mod_cast g1
  have hs : (2 : ℚ) ^ (T.p - 1) ≤ sigN T (a - 1) := by exact_mod_cast sigN_ge (T := T) (a := a - 1) (by omega)
  have hU : (0 : ℚ) < ulpN T (a - 1) := by exact_mod_cast ulpN_pos T (a - 1)
  have hNe : (N T (a - 1) : ℚ) = sigN T (a - 1) * ulpN T (a - 1) := by rw [N_eq]; push_cast; ring
  have hu1 : 2 ^ (T.p - 1) * (ulpN T (a - 1) * 2 ^ emin T) < (2 : ℚ) ^ j := by
    rw [← hj, ← mul_assoc]
    apply mul_lt_mul_of_pos_right _ hm
    rw [g1', hNe]
    have := mul_le_mul_of_nonneg_right hs hU.le
    linarith
  have hgap : (2 : ℚ) ^ j - d / 10 ^ k < ulpN T (a - 1) * 2 ^ emin T / 2 := by
    rw [← hj, g1']
    rw [g1'] at hlo
    linarith
  have hpp : (2 : ℚ) ^ T.p = 2 * 2 ^ (T.p - 1) := by cases T <;> norm_num [FloatType.p]
  have hrel : 2 ^ T.p * ((2 : ℚ) ^ j - d / 10 ^ k) < 2 ^ j := by
    rw [hpp]
    have := mul_lt_mul_of_pos_left hgap (show (0 : ℚ) < 2 * 2 ^ (T.p - 1) by positivity)
    linarith
  have hd' : (d : ℚ) < 10 ^ decimalDigits T := by exact_mod_cast hd
  have hP : (10 : ℚ) ^ decimalDigits T + 1 ≤ 2 ^ T.p := by cases T <;> norm_num [decimalDigits, FloatType.p]
  rcases le_or_gt 0 j with h | h
  · obtain ⟨i, rfl⟩ := Int.eq_ofNat_of_zero_le h
    rw [zpow_natCast] at hlt hrel
    rw [div_lt_iff₀ h10] at hlt
    have hlt' : d + 1 ≤ 2 ^ i * 10 ^ k := by exact_mod_cast hlt
    have hlt'' : (d : ℚ) + 1 ≤ 2 ^ i * 10 ^ k := by exact_mod_cast hlt'
    have hr2 : 2 ^ T.p * ((2 : ℚ) ^ i * 10 ^ k - d) < 2 ^ i * 10 ^ k := by
      have := mul_lt_mul_of_pos_right hrel h10
      rw [mul_assoc, sub_mul, div_mul_cancel₀ _ h10.ne'] at this
      exact this
    generalize (2 : ℚ) ^ i * 10 ^ k = Q at *
    have hpos : (0 : ℚ) < 2 ^ T.p := by positivity
    nlinarith
  · obtain ⟨i, hi⟩ : ∃ i : Nat, j = -(i : Int) := ⟨(-j).toNat, by omega⟩
    rw [hi, zpow_neg, zpow_natCast] at hlt hrel
    have h2 : (0 : ℚ) < 2 ^ i := by positivity
    have e1 : (2 ^ i : ℚ)⁻¹ - d / 10 ^ k = (10 ^ k - d * 2 ^ i) * ((2 ^ i)⁻¹ * (10 ^ k)⁻¹) := by
      field_simp
    have hpos : (0 : ℚ) < 10 ^ k - d * 2 ^ i := by
      rw [div_lt_iff₀ h10, inv_mul_eq_div, lt_div_iff₀ h2] at hlt
      linarith
    have hone : (1 : ℚ) ≤ 10 ^ k - d * 2 ^ i := by
      have h' : (d * 2 ^ i : ℚ) < 10 ^ k := by linarith
      have h'' : d * 2 ^ i + 1 ≤ 10 ^ k := by exact_mod_cast h'
      have h3 : (d * 2 ^ i + 1 : ℚ) ≤ 10 ^ k := by exact_mod_cast h''
      linarith
    rw [e1] at hrel
    have h3 : (2 : ℚ) ^ T.p * ((10 ^ k)⁻¹) < 1 := by
      have h4 : 2 ^ T.p * (1 * ((2 ^ i : ℚ)⁻¹ * (10 ^ k)⁻¹)) < (2 ^ i)⁻¹ :=
        lt_of_le_of_lt (mul_le_mul_of_nonneg_left (mul_le_mul_of_nonneg_right hone (by positivity)) (by positivity)) hrel
      have h5 := mul_lt_mul_of_pos_right h4 h2
      rw [inv_mul_cancel₀ h2.ne'] at h5
      have e2 : 2 ^ T.p * (1 * ((2 ^ i : ℚ)⁻¹ * (10 ^ k)⁻¹)) * 2 ^ i = 2 ^ T.p * ((10 ^ k)⁻¹) := by field_simp
      rwa [e2] at h5
    rw [← div_eq_mul_inv, div_lt_one h10] at h3
    have h6 : (10 : ℚ) ^ k ≤ 10 ^ 3 := pow_le_pow_right₀ (by norm_num) hk
    have h7 : (10 : ℚ) ^ 3 ≤ 2 ^ T.p := by cases T <;> norm_num [FloatType.p]
    linarith

/-- Where the gaps differ there is a power of two. -/
theorem pow2_of_ulp {T : FloatType} {a : Nat} (hn : 2 ^ (T.p - 1) < a) (h : ulpN T (a - 1) ≠ ulpN T a) :
    ∃ j : Int, (N T a : ℚ) * 2 ^ emin T = 2 ^ j := by
  have hp0 : 0 < 2 ^ (T.p - 1) := by positivity
  have hmod : a % 2 ^ (T.p - 1) = 0 := by
    by_contra hc
    apply h
    have hq : (a - 1) / 2 ^ (T.p - 1) = a / 2 ^ (T.p - 1) := by
      have h1 := Nat.div_add_mod a (2 ^ (T.p - 1))
      have h2 := Nat.mod_lt a hp0
      rw [mul_comm] at h1
      apply Nat.div_eq_of_lt_le
      · omega
      · rw [Nat.add_mul, one_mul]; omega
    unfold ulpN
    rw [hq]
  have hs : sigN T a = 2 ^ (T.p - 1) := by
    unfold sigN
    rw [if_neg, hmod]
    · simp
    · intro h0
      have := (Nat.div_eq_zero_iff_lt hp0).mp h0
      omega
  obtain ⟨i, hi⟩ := ulpN_exp T a
  refine ⟨((T.p - 1 : Nat) : Int) + i + emin T, ?_⟩
  rw [N_eq, hs, hi, zpow_add₀ (by norm_num), zpow_add₀ (by norm_num), zpow_natCast, zpow_natCast]
  push_cast
  ring

/-- An amount lies safely inside the rounding interval of the datum it identifies. -/
theorem amount_safelyInside {T : FloatType} {b d k : Nat} (hb : AboveLeastNormal T b)
    (hk : k ≤ amountPlaces T) (hd : d < 10 ^ decimalDigits T)
    (hid : Identifies T (d / 10 ^ k) (absPat T b)) : SafelyInside T b (d / 10 ^ k) := by
  obtain ⟨hf, hn⟩ := hb
  rw [absPat_mod] at hn
  have hal := absPat_lt_posInf hf
  have hm := emin_pos T
  have hp0 : 0 < 2 ^ (T.p - 1) := by positivity
  obtain ⟨q1, q2⟩ := mids_eq hf
  obtain ⟨m1, m2⟩ := identifies_mids hal (by omega) hid
  obtain ⟨g1, g2, g3, g4, g5⟩ := normal_gaps hn
  have hk3 : k ≤ 3 := by cases T <;> simp [amountPlaces] at hk <;> omega
  generalize hab : absPat T b = a at *
  have e1 : Mid T (a - 1) = (N T (a - 1) + N T a : ℚ) / 2 * 2 ^ emin T := by
    unfold Mid; rw [Nat.sub_add_cancel (by omega)]
  have e2 : Mid T a = (N T a + N T (a + 1) : ℚ) / 2 * 2 ^ emin T := rfl
  have g1' : (N T a : ℚ) = N T (a - 1) + ulpN T (a - 1) := by exact_mod_cast g1
  have g2' : (N T (a + 1) : ℚ) = N T a + ulpN T a := by exact_mod_cast g2
  have g3' : (ulpN T (a - 1) : ℚ) * 2 ^ emin T ≤ ulpN T a * 2 ^ emin T := by
    apply mul_le_mul_of_nonneg_right _ hm.le; exact_mod_cast g3
  have g4' : (ulpN T a : ℚ) * 2 ^ emin T ≤ 2 * (ulpN T (a - 1) * 2 ^ emin T) := by
    rw [← mul_assoc]
    apply mul_le_mul_of_nonneg_right _ hm.le; exact_mod_cast g4
  have hN0 : (0 : ℚ) ≤ N T (a - 1) * 2 ^ emin T := by positivity
  have hge : (N T a : ℚ) * 2 ^ emin T ≤ 2 * (d / 10 ^ k) := by
    rw [g1'] at m1 ⊢
    linarith
  have hfar := amount_far (d := d) (amount_ulp hk3 hd hge)
  have hfar' := amount_far (d := d) (amount_ulp (a := a - 1) hk3 hd
    (le_trans (mul_le_mul_of_nonneg_right (by exact_mod_cast N_le (by omega)) hm.le) hge))
  rw [← e2] at m2 q2
  rw [← e1] at m1 q1
  rw [abs_of_neg (by linarith)] at hfar
  rw [abs_of_pos (by linarith)] at hfar'
  have h5 : (5 : ℚ) ^ k ≤ 5 ^ amountPlaces T := pow_le_pow_right₀ (by norm_num) hk
  -- the lower side: either the gaps are equal or the datum is a power of two
  have hlow : ulpN T (a - 1) = ulpN T a ∨ (N T a : ℚ) * 2 ^ emin T ≤ d / 10 ^ k := by
    by_contra hc
    push Not at hc
    obtain ⟨c1, c2⟩ := hc
    obtain ⟨j, hj⟩ := pow2_of_ulp hn c1
    rw [e1] at m1
    exact amount_no_carry hk3 hd hn hj (by rw [← hj]; exact c2) m1
  have hB : (N T a : ℚ) * 2 ^ emin T = Mid T (a - 1) + ulpN T (a - 1) * 2 ^ emin T / 2 := by
    rw [e1, g1']; ring
  rw [hB] at hlow
  have hstep : stepAbove T b = ulpN T a * 2 ^ emin T := by
    rw [stepAbove_eq hf, hab, g2']; ring
  unfold SafelyInside
  rw [q1, q2, hstep]
  have hVU : ulpN T (a - 1) = ulpN T a → (ulpN T (a - 1) : ℚ) * 2 ^ emin T = ulpN T a * 2 ^ emin T := fun e => by rw [e]
  generalize (ulpN T a : ℚ) * 2 ^ emin T = U at *
  generalize (ulpN T (a - 1) : ℚ) * 2 ^ emin T = V at *
  generalize (d : ℚ) / 10 ^ k = x at *
  generalize Mid T a = A at *
  generalize Mid T (a - 1) = B at *
  have f1 : U ≤ (A - x) * (2 * 5 ^ amountPlaces T) := by
    refine le_trans hfar ?_
    rw [neg_sub]
    exact mul_le_mul_of_nonneg_left (by linarith) (by linarith)
  have f2 : V ≤ (x - B) * (2 * 5 ^ amountPlaces T) :=
    le_trans hfar' (mul_le_mul_of_nonneg_left (by linarith) (by linarith))
  have hV : V = U ∨ B + V / 2 ≤ x := hlow.imp hVU id
  have hU : 0 ≤ U := by linarith
  clear hVU hlow
  rcases hV with hV | hV <;> cases T <;> norm_num [amountPlaces, margin] at * <;> constructor <;> linarith

/-- An identified number without its sign. -/
theorem identifies_abs {T : FloatType} {x : ℚ} {b : Nat} (h : Identifies T x b) (h0 : value T b ≠ 0) :
    Identifies T |x| (absPat T b) := by
  obtain ⟨s1, s2⟩ := identifies_sign h h0
  have hf := h.1
  have key : ∀ {y : ℚ} {c : Nat}, Identifies T y c → 0 < value T c → 0 < y → absPat T c = absPat T b →
      Identifies T y (absPat T b) := by
    intro y c hc hv hy e
    have : c = absPat T c := by
      obtain ⟨e1, e2⟩ := pat_decomp hc.1.1
      rcases e2 with e2 | e2
      · rw [e2] at e1; simpa using e1
      · have := (value_sign hc.1 hv.ne').mp e2
        linarith
    rw [← e, ← this]; exact hc
  rcases lt_or_gt_of_ne s2 with hx | hx
  · have hv := s1.mpr hx
    rw [abs_of_neg hx]
    have hn := identifies_neg h
    refine key hn ?_ (by linarith) (signBit_neg hf.1).2.1
    rw [value_neg hf.1]; linarith
  · rw [abs_of_pos hx]
    have hv : 0 < value T b := lt_of_le_of_ne (not_lt.mp fun c => absurd (s1.mp c) (by linarith)) h0.symm
    exact key h hv hx rfl

/-- An amount identifies only normal numbers above the least one. -/
theorem amount_above {T : FloatType} {b d k : Nat} (hf : IsFinite T b) (hk : k ≤ 3) (h0 : 0 < d)
    (hid : Identifies T (d / 10 ^ k) (absPat T b)) : AboveLeastNormal T b := by
  refine ⟨hf, ?_⟩
  rw [absPat_mod]
  by_contra hc
  push Not at hc
  have hm := emin_pos T
  have hx : (1 : ℚ) / 10 ^ 3 ≤ d / 10 ^ k := by
    have h1 : (1 : ℚ) ≤ d := by exact_mod_cast h0
    have h2 : (10 : ℚ) ^ k ≤ 10 ^ 3 := pow_le_pow_right₀ (by norm_num) hk
    exact div_le_div₀ (by linarith) h1 (by positivity) h2
  have hal := absPat_lt_posInf hf
  have hlt : (d : ℚ) / 10 ^ k < (2 ^ (T.p - 1) + 1) * 2 ^ emin T := by
    by_cases hz : absPat T b = 0
    · have hp : 2 ^ (T.p - 1) < posInf T := by cases T <;> decide
      have := hid.2.2 (2 ^ (T.p - 1)) (isFinite_of_lt hp) (by
        rw [value_of_lt hal, value_of_lt hp, hz, N_zero]
        have : N T (2 ^ (T.p - 1)) = 2 ^ (T.p - 1) := by cases T <;> decide
        rw [this]; push_cast; rw [zero_mul]; positivity)
      rw [value_of_lt hal, value_of_lt hp, hz, N_zero] at this
      have e : N T (2 ^ (T.p - 1)) = 2 ^ (T.p - 1) := by cases T <;> decide
      rw [e] at this
      by_contra hge
      push Not at hge
      push_cast at this
      rw [zero_mul, sub_zero, abs_of_pos (by linarith [show (0 : ℚ) < 1 / 10 ^ 3 by norm_num]), abs_of_pos (by linarith)] at this
      have : (0 : ℚ) < 2 ^ (T.p - 1) * 2 ^ emin T := by positivity
      linarith
    · obtain ⟨-, m2⟩ := identifies_mids hal hz hid
      refine lt_of_lt_of_le m2 ?_
      apply mul_le_mul_of_nonneg_right _ hm.le
      have e : N T (2 ^ (T.p - 1)) = 2 ^ (T.p - 1) := by cases T <;> decide
      have e' : N T (2 ^ (T.p - 1) + 1) = 2 ^ (T.p - 1) + 1 := by cases T <;> decide
      have h1 : (N T (absPat T b) : ℚ) ≤ (2 ^ (T.p - 1) + 1 : ℕ) := by
        exact_mod_cast le_trans (N_le hc) (by rw [e]; omega)
      have h2 : (N T (absPat T b + 1) : ℚ) ≤ (2 ^ (T.p - 1) + 1 : ℕ) := by
        exact_mod_cast le_trans (N_le (show absPat T b + 1 ≤ 2 ^ (T.p - 1) + 1 by omega)) (by rw [e'])
      push_cast at h1 h2
      linarith
  have hsmall : ((2 : ℚ) ^ (T.p - 1) + 1) * 2 ^ emin T ≤ 1 / 10 ^ 3 := by
    have h1 : (2 : ℚ) ^ emin T ≤ 2 ^ (-149 : ℤ) := by
      apply zpow_le_zpow_right₀ (by norm_num); cases T <;> decide
    have h2 : (2 : ℚ) ^ (T.p - 1) + 1 ≤ 2 ^ 53 := by cases T <;> norm_num [FloatType.p]
    refine le_trans (mul_le_mul h2 h1 (by positivity) (by positivity)) ?_
    norm_num
  linarith

end Floaxie
