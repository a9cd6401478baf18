import Verif.Proof.ShortMain
import Mathlib.Tactic.LinearCombination

/-! # The digits cannot be increased, for every value -/

namespace Floaxie

open FloatType Spec

/-- Grisu2 on a finite non-zero value: one more in the last place is above the
rounding interval, or near its upper end. -/
theorem grisu2_upper (T : FloatType) (a : Nat) (ha : a < posInf T) (h0 : a ≠ 0) :
    ∃ (ds : List (Fin 10)) (k : Int),
      (N T a + N T (a + 1) : ℚ) / 2 * 2 ^ emin T - ((N T (a + 1) - N T a : ℚ) * 2 ^ emin T) / margin T <
        (digitsVal ds + 1) * 10 ^ k ∧
      ∀ rest : List Nat, ds.length ≤ rest.length →
        grisu2 T a rest 0 = .ok (ds.map digitChar ++ rest.drop ds.length, ds.length, k) := by
  have hab : absPat T a = a := absPat_of_lt ha
  have hb : a < 2 ^ T.W := by
    rw [← hab]; exact lt_of_lt_of_le (absPat_lt T a) (Nat.pow_le_pow_right (by norm_num) (Nat.sub_le _ _))
  obtain ⟨ds, k, -, -, -, -, -, ⟨mi, pl, c, mk, m1, m2, m3, m4, m5, m6, -, -, m9⟩, d6⟩ :=
    grisu2_full T a hb (by rw [hab]; exact ha) (by rw [hab]; exact h0)
  refine ⟨ds, k, ?_, fun rest hr => by simpa using d6 0 [] rest rfl hr⟩
  obtain ⟨J, E, hE, hJ, hf0, hfp, hJn, hpl1, hpl2, hE1, hE2, hbd⟩ :=
    boundaries_ok T a hb (by rw [hab]; exact ha) (by rw [hab]; exact h0)
  have hNs := N_succ T a
  have hNa : N T a = sigN T a * ulpN T a := N_eq _ _
  have hulp : ulpN T a = 2 ^ (a / 2 ^ (T.p - 1) - 1) := rfl
  rw [hab] at hE hf0 hfp hJn hpl1 hpl2 hbd
  rw [m1, Except.ok.injEq, Prod.mk.injEq] at hbd
  obtain ⟨hmi, hpl⟩ := hbd
  generalize sigN T a = f at *
  generalize a / 2 ^ (T.p - 1) - 1 = st at *
  have hshle : bshift T f ≤ 2 := by unfold bshift; split_ifs <;> omega
  have hshge : 1 ≤ bshift T f := by unfold bshift; split_ifs <;> omega
  generalize bshift T f = sh at *
  obtain ⟨hmk1, hmk2, hmk3, hwin⟩ := kComp_ok T E hE1 hE2
  have hple : pl.e = E := by rw [hpl]
  rw [hple] at m5
  rw [← m5] at hmk1 hmk2
  obtain ⟨c', hc0, hc1, hc2, hc3⟩ := cachedPower_ok T mk
    (by revert hmk1; cases T <;> simp only [mkLo, FloatType.powLo] <;> omega)
    (by revert hmk2; cases T <;> simp only [mkHi, FloatType.powHi] <;> omega)
  rw [m6, Except.ok.injEq] at hc0
  subst hc0
  have herr := mul_err T pl c mk m4 hc2 hc3
  have hexp : (2 : ℚ) ^ (pl.mul T.W c).e = 2 ^ E * 2 ^ c.e * 2 ^ T.W := by
    rw [mul_e, hple, zpow_add₀ (by norm_num), zpow_add₀ (by norm_num), zpow_natCast]
  rw [hexp] at herr m9
  rw [hple] at herr
  have hu : (2 : ℚ) ^ E * 2 ^ J * 2 = 2 ^ emin T * 2 ^ st := by
    rw [hE, ← zpow_natCast (2 : ℚ) J, ← zpow_natCast (2 : ℚ) st, ← zpow_add₀ (by norm_num),
      ← zpow_add_one₀ (by norm_num), ← zpow_add₀ (by norm_num)]
    congr 1
    ring
  have hE0 : (0 : ℚ) < 2 ^ E := by positivity
  have hup : (N T a + N T (a + 1) : ℚ) / 2 * 2 ^ emin T = pl.f * 2 ^ E := by
    have : (pl.f : ℚ) = (2 * f + 1) * 2 ^ J := by rw [hpl]; push_cast; ring
    rw [hNs, hNa, hulp, this]
    push_cast
    linear_combination (-(2 * f + 1) / 2 : ℚ) * hu
  have hdn : (2 * 2 ^ J : ℚ) * 2 ^ E = (N T (a + 1) - N T a : ℚ) * 2 ^ emin T := by
    rw [hNs, hulp]
    push_cast
    linear_combination hu
  have hc4 : ((2 : ℚ) ^ (T.W - 1) - 1 / 2) * 2 ^ c.e ≤ 10 ^ mk := by
    rw [abs_le] at hc3
    have h2 : (2 : ℚ) ^ (T.W - 1) ≤ c.f := by exact_mod_cast hc1
    have h3 : (0 : ℚ) < 2 ^ c.e := by positivity
    nlinarith [hc3.2]
  have h10 : (0 : ℚ) < 10 ^ mk := by positivity
  have hce : (0 : ℚ) < 2 ^ c.e := by positivity
  have hcut0 : (0 : ℚ) < margin T := by cases T <;> norm_num [margin]
  have hJ2 : (2 : ℚ) ^ (T.W - T.p - 1) ≤ 2 ^ J := pow_le_pow_right₀ (by norm_num) hJ
  have hnum : 2 * (margin T : ℚ) * 2 ^ T.W ≤ 2 * 2 ^ (T.W - T.p - 1) * (2 ^ (T.W - 1) - 1 / 2) := by
    cases T
    · norm_num [FloatType.W, FloatType.p, margin]
    · norm_num [FloatType.W, FloatType.p, margin]
  have hpos2 : (0 : ℚ) ≤ 2 ^ (T.W - 1) - 1 / 2 := by cases T <;> norm_num [FloatType.W]
  have hunit : 2 * (2 ^ E * 2 ^ c.e * 2 ^ T.W : ℚ) ≤
      (N T (a + 1) - N T a : ℚ) * 2 ^ emin T / margin T * 10 ^ mk := by
    rw [div_mul_eq_mul_div, le_div_iff₀ hcut0, ← hdn]
    calc 2 * (2 ^ E * 2 ^ c.e * 2 ^ T.W : ℚ) * margin T
        = (2 * margin T * 2 ^ T.W) * (2 ^ E * 2 ^ c.e) := by ring
      _ ≤ (2 * 2 ^ (T.W - T.p - 1) * (2 ^ (T.W - 1) - 1 / 2)) * (2 ^ E * 2 ^ c.e) :=
          mul_le_mul_of_nonneg_right hnum (by positivity)
      _ ≤ (2 * 2 ^ J * (2 ^ (T.W - 1) - 1 / 2)) * (2 ^ E * 2 ^ c.e) := by
          apply mul_le_mul_of_nonneg_right _ (by positivity)
          apply mul_le_mul_of_nonneg_right _ hpos2
          linarith
      _ = (2 * 2 ^ J * 2 ^ E) * ((2 ^ (T.W - 1) - 1 / 2) * 2 ^ c.e) := by ring
      _ ≤ _ := mul_le_mul_of_nonneg_left hc4 (by positivity)
  rw [abs_lt] at herr
  rw [hup]
  refine lt_of_mul_lt_mul_right ?_ h10.le
  rw [sub_mul]
  linarith [herr.1]

/-- The printed number, and the next one with its last place. -/
theorem upper_main (T : FloatType) (bits : Nat) (hf : IsFinite T bits) (h0 : value T bits ≠ 0) :
    ∃ (ds : List (Fin 10)) (k : Int), ds.length ≤ maxSigDigits T ∧
      (∃ h : ds ≠ [], ds.head h ≠ 0 ∧ ds.getLast h ≠ 0) ∧
      Identifies T (digitsVal ds * 10 ^ k) (absPat T bits) ∧ k.natAbs ≤ 343 ∧
      midAbove T bits - stepAbove T bits / margin T < (digitsVal ds + 1) * 10 ^ k ∧
      Prints T bits (fmtNumeral (decide (signBit T bits = 1)) ds k).text := by
  have hal := absPat_lt_posInf hf
  have h0' := abs_ne_zero_of_value h0
  obtain ⟨ds, k, a1, hg⟩ := grisu2_upper T (absPat T bits) hal h0'
  obtain ⟨ds', k', b1, b2, b3, b4, -, -, hg', b5⟩ := ftoa_main'' T (absPat T bits) hal h0'
  have e1 := hg (List.replicate (ds.length + ds'.length) 0) (by simp)
  have e2 := hg' (List.replicate (ds.length + ds'.length) 0) (by simp)
  rw [e1] at e2
  simp only [Except.ok.injEq, Prod.mk.injEq] at e2
  obtain ⟨e3, e4, e5⟩ := e2
  have hds : ds = ds' := by
    apply map_digitChar_inj
    exact (List.append_inj e3 (by simp [e4])).1
  subst hds; subst e5
  refine ⟨ds, k, b1, b2, b3, b4, ?_, b5 bits hf.1 rfl⟩
  rw [(mids_eq hf).2, stepAbove_eq hf]
  exact a1

end Floaxie
