import Verif.Prop.Ftoa
import Verif.Proof.Short
import Verif.Proof.Round

/-! # Shortness of the printed text: linking the digit generator to the text -/

namespace Floaxie

open FloatType Spec

theorem absPat_mod (T : FloatType) (b : Nat) : b % 2 ^ (T.W - 1) = absPat T b := rfl

theorem map_digitChar_inj {a b : List (Fin 10)} (h : a.map digitChar = b.map digitChar) : a = b :=
  List.map_injective_iff.mpr (fun _ _ => digitChar_inj) h

/-- Everything about a number other than zero and the least normal one. -/
theorem brief_main (T : FloatType) (bits : Nat) (hf : IsFinite T bits) (h0 : absPat T bits ≠ 0)
    (hn : absPat T bits ≠ 2 ^ (T.p - 1)) :
    ∃ (A B : ℚ) (ds : List (Fin 10)) (k : Int), 0 < A ∧
      A ≤ digitsVal ds * 10 ^ k ∧ (digitsVal ds * 10 ^ k : ℚ) ≤ B ∧
      (∀ y : ℚ, SafelyInside T bits y → A ≤ y ∧ y ≤ B) ∧
      (2 ^ (T.W / 2) ≤ absPat T bits ∨ fewDigits T < ds.length →
        ∀ (n : Nat) (k' : Int), k < k' → ¬ (A ≤ n * 10 ^ k' ∧ (n * 10 ^ k' : ℚ) ≤ B)) ∧
      B < (digitsVal ds + 1 : ℕ) * 10 ^ k ∧
      ds.length ≤ maxSigDigits T ∧
      (∃ h : ds ≠ [], ds.head h ≠ 0 ∧ ds.getLast h ≠ 0) ∧
      Identifies T (digitsVal ds * 10 ^ k) (absPat T bits) ∧ k.natAbs ≤ 343 ∧
      Prints T bits (fmtNumeral (decide (signBit T bits = 1)) ds k).text := by
  have hal := absPat_lt_posInf hf
  have hWlt : absPat T bits < 2 ^ T.W := lt_of_le_of_lt (Nat.mod_le _ _) hf.1
  have hid := absPat_idem T bits
  obtain ⟨A, B, ds, k, a1, a2, a3, a4, a5, a6, L, hg⟩ := grisu2_brief T (absPat T bits) hWlt
    (by rw [hid]; exact hal) (by rw [hid]; exact h0) (by rw [hid]; exact hn)
  rw [hid] at a4 a5
  obtain ⟨ds', k', b1, b2, b3, b4, -, -, hg', b5⟩ := ftoa_main'' T (absPat T bits) hal h0
  have e1 := hg (List.replicate (L + ds'.length) 0) (by simp)
  have e2 := hg' (List.replicate (L + ds'.length) 0) (by simp)
  rw [e1] at e2
  simp only [Except.ok.injEq, Prod.mk.injEq] at e2
  obtain ⟨e3, e4, e5⟩ := e2
  have hds : ds = ds' := by
    apply map_digitChar_inj
    exact (List.append_inj e3 (by simp [e4])).1
  subst hds; subst e5
  refine ⟨A, B, ds, k, a1, a2, a3, ?_, a5, a6, b1, b2, b3, b4, b5 bits hf.1 rfl⟩
  intro y hy
  unfold SafelyInside midBelow midAbove stepAbove at hy
  rw [absPat_mod] at hy
  have hb1 : absPat T (absPat T bits - 1) = absPat T bits - 1 :=
    Nat.mod_eq_of_lt (by have := absPat_lt T bits; omega)
  have hb2 : absPat T (absPat T bits + 1) = absPat T bits + 1 := by
    apply Nat.mod_eq_of_lt
    have h1 : posInf T < 2 ^ (T.W - 1) := by cases T <;> decide
    omega
  rw [mag_eq, mag_eq, mag_eq, hb1, hb2, hid] at hy
  obtain ⟨y1, y2⟩ := hy
  apply a4
  · convert y1 using 1; ring
  · convert y2 using 1; ring

/-- Everything about a normal number above the least one. -/
theorem short_main (T : FloatType) (bits : Nat) (h : AboveLeastNormal T bits) :
    ∃ (A B : ℚ) (ds : List (Fin 10)) (k : Int), 0 < A ∧
      A ≤ digitsVal ds * 10 ^ k ∧ (digitsVal ds * 10 ^ k : ℚ) ≤ B ∧
      (∀ y : ℚ, SafelyInside T bits y → A ≤ y ∧ y ≤ B) ∧
      (∀ (n : Nat) (k' : Int), k < k' → ¬ (A ≤ n * 10 ^ k' ∧ (n * 10 ^ k' : ℚ) ≤ B)) ∧
      B < (digitsVal ds + 1 : ℕ) * 10 ^ k ∧
      ds.length ≤ maxSigDigits T ∧
      (∃ h : ds ≠ [], ds.head h ≠ 0 ∧ ds.getLast h ≠ 0) ∧
      Identifies T (digitsVal ds * 10 ^ k) (absPat T bits) ∧ k.natAbs ≤ 343 ∧
      Prints T bits (fmtNumeral (decide (signBit T bits = 1)) ds k).text := by
  have hn := h.2
  rw [absPat_mod] at hn
  have hp0 : 0 < 2 ^ (T.p - 1) := by positivity
  have hWp : 2 ^ (T.W / 2) ≤ 2 ^ (T.p - 1) := by cases T <;> decide
  obtain ⟨A, B, ds, k, a1, a2, a3, a4, a5, a6⟩ := brief_main T bits h.1 (by omega) (by omega)
  exact ⟨A, B, ds, k, a1, a2, a3, a4, a5 (Or.inl (by omega)), a6⟩

/-- A digit string without leading zero. -/
theorem digitsVal_ge {ds : List (Fin 10)} (hne : ds ≠ []) (hh : ds.head hne ≠ 0) :
    10 ^ (ds.length - 1) ≤ digitsVal ds := by
  cases ds with
  | nil => exact absurd rfl hne
  | cons d ds =>
    simp only [List.head_cons] at hh
    have := digitsVal_append [d] ds
    rw [List.singleton_append] at this
    rw [this, show digitsVal [d] = d.val by simp [digitsVal]]
    have : 1 ≤ d.val := Nat.one_le_iff_ne_zero.mpr (fun h => hh (Fin.ext h))
    simp only [List.length_cons, Nat.add_sub_cancel]
    nlinarith [Nat.pos_of_ne_zero (pow_ne_zero ds.length (show (10:ℕ) ≠ 0 by norm_num))]

theorem identifies_mids {T : FloatType} {a : Nat} {x : ℚ} (ha : a < posInf T) (h0 : a ≠ 0)
    (h : Identifies T x a) :
    (N T (a - 1) + N T a : ℚ) / 2 * 2 ^ emin T < x ∧
      x < (N T a + N T (a + 1) : ℚ) / 2 * 2 ^ emin T := by
  have hu := emin_pos T
  have va := value_of_lt ha
  have hm1 : (N T (a - 1) : ℚ) < N T a := by exact_mod_cast N_lt (by omega)
  have hm2 : (N T a : ℚ) < N T (a + 1) := by exact_mod_cast N_lt (by omega)
  constructor
  · have v1 := value_of_lt (show a - 1 < posInf T by omega)
    have h1 := sq_lt_sq.mpr (h.2.2 (a - 1) (isFinite_of_lt (by omega)) (by
      rw [va, v1]; intro e; have := mul_right_cancel₀ hu.ne' e; linarith))
    rw [va, v1] at h1
    have : 0 < ((N T a : ℚ) - N T (a - 1)) * 2 ^ emin T := mul_pos (by linarith) hu
    by_contra hc
    push Not at hc
    nlinarith [mul_nonneg this.le (sub_nonneg.mpr hc)]
  · by_cases hi : a + 1 < posInf T
    · have v1 := value_of_lt hi
      have h1 := sq_lt_sq.mpr (h.2.2 (a + 1) (isFinite_of_lt hi) (by
        rw [va, v1]; intro e; have := mul_right_cancel₀ hu.ne' e; linarith))
      rw [va, v1] at h1
      have : 0 < ((N T (a + 1) : ℚ) - N T a) * 2 ^ emin T := mul_pos (by linarith) hu
      by_contra hc
      push Not at hc
      nlinarith [mul_nonneg this.le (sub_nonneg.mpr hc)]
    · have e : a = posInf T - 1 := by omega
      have e2 : a + 1 = posInf T := by omega
      have ht := overflowThreshold_eq T
      have h2 := (abs_lt.mp h.2.1).2
      rw [e2, e]
      linarith

/-- Size of the gaps around a normal number. -/
theorem normal_gaps {T : FloatType} {a : Nat} (hn : 2 ^ (T.p - 1) < a) :
    N T a = N T (a - 1) + ulpN T (a - 1) ∧ N T (a + 1) = N T a + ulpN T a ∧
      ulpN T (a - 1) ≤ ulpN T a ∧ ulpN T a ≤ 2 * ulpN T (a - 1) ∧
      2 ^ (T.p - 1) * ulpN T a ≤ N T a := by
  have hp0 : 0 < 2 ^ (T.p - 1) := by positivity
  refine ⟨?_, N_succ T a, ulpN_mono (by omega), ulpN_pred, ?_⟩
  · have := N_succ T (a - 1)
    rwa [Nat.sub_add_cancel (by omega)] at this
  · rw [N_eq]
    apply Nat.mul_le_mul_right
    unfold sigN
    rw [if_neg]
    · omega
    · intro h
      rw [Nat.div_eq_zero_iff] at h
      omega

/-- Both ends of the interval in the units of the last place. -/
theorem mids_eq {T : FloatType} {bits : Nat} (hf : IsFinite T bits) :
    midBelow T bits = (N T (absPat T bits - 1) + N T (absPat T bits) : ℚ) / 2 * 2 ^ emin T ∧
    midAbove T bits = (N T (absPat T bits) + N T (absPat T bits + 1) : ℚ) / 2 * 2 ^ emin T := by
  unfold midBelow midAbove
  rw [absPat_mod]
  have hal := absPat_lt_posInf hf
  have hb1 : absPat T (absPat T bits - 1) = absPat T bits - 1 :=
    Nat.mod_eq_of_lt (by have := absPat_lt T bits; have : 0 < 2 ^ (T.W - 1) := by positivity
                         omega)
  have hb2 : absPat T (absPat T bits + 1) = absPat T bits + 1 := by
    apply Nat.mod_eq_of_lt
    have h1 : posInf T < 2 ^ (T.W - 1) := by cases T <;> decide
    omega
  rw [mag_eq, mag_eq, mag_eq, hb1, hb2, absPat_idem]
  constructor <;> ring

/-- The distance to the upper neighbour in the units of the last place. -/
theorem stepAbove_eq {T : FloatType} {bits : Nat} (hf : IsFinite T bits) :
    stepAbove T bits = (N T (absPat T bits + 1) - N T (absPat T bits) : ℚ) * 2 ^ emin T := by
  unfold stepAbove
  rw [absPat_mod]
  have hal := absPat_lt_posInf hf
  have hb2 : absPat T (absPat T bits + 1) = absPat T bits + 1 := by
    apply Nat.mod_eq_of_lt
    have h1 : posInf T < 2 ^ (T.W - 1) := by cases T <;> decide
    omega
  rw [mag_eq, mag_eq, hb2, absPat_idem]
  ring

/-- The value itself is well inside its interval. -/
theorem wellInside_self {T : FloatType} {bits : Nat} (h : AboveLeastNormal T bits) :
    WellInside T bits (mag T bits) := by
  obtain ⟨hf, hn⟩ := h
  rw [absPat_mod] at hn
  obtain ⟨m1, m2⟩ := mids_eq hf
  obtain ⟨g1, g2, g3, g4, -⟩ := normal_gaps hn
  unfold WellInside
  rw [m1, m2, mag_eq, g2, g1]
  have hu := emin_pos T
  have hul := ulpN_pos T (absPat T bits - 1)
  push_cast
  generalize (2 : ℚ) ^ emin T = u at *
  have g3' : (ulpN T (absPat T bits - 1) : ℚ) ≤ ulpN T (absPat T bits) := by exact_mod_cast g3
  have g4' : (ulpN T (absPat T bits) : ℚ) ≤ 2 * ulpN T (absPat T bits - 1) := by exact_mod_cast g4
  have hul' : (0 : ℚ) < ulpN T (absPat T bits - 1) := by exact_mod_cast hul
  generalize (ulpN T (absPat T bits) : ℚ) = U at *
  generalize (ulpN T (absPat T bits - 1) : ℚ) = V at *
  generalize (N T (absPat T bits - 1) : ℚ) = M at *
  have k1 : 0 ≤ (U - V) * u := mul_nonneg (by linarith) hu.le
  have k2 : 0 ≤ (2 * V - U) * u := mul_nonneg (by linarith) hu.le
  have k3 : 0 < V * u := mul_pos hul' hu
  cases T <;> simp only [cutOff] <;> constructor <;> push_cast <;> linarith

/-- The wider margin implies the narrower one. -/
theorem safelyInside_of_wellInside {T : FloatType} {bits : Nat} (h : AboveLeastNormal T bits) {y : ℚ}
    (hy : WellInside T bits y) : SafelyInside T bits y := by
  obtain ⟨hf, hn⟩ := h
  rw [absPat_mod] at hn
  obtain ⟨m1, m2⟩ := mids_eq hf
  obtain ⟨g1, g2, g3, g4, -⟩ := normal_gaps hn
  unfold WellInside at hy
  unfold SafelyInside
  rw [stepAbove_eq hf]
  rw [m1, m2, g2, g1] at hy
  rw [m1, m2, g2, g1]
  have hu := emin_pos T
  push_cast at hy ⊢
  generalize (2 : ℚ) ^ emin T = u at *
  have g3' : (ulpN T (absPat T bits - 1) : ℚ) ≤ ulpN T (absPat T bits) := by exact_mod_cast g3
  have g4' : (ulpN T (absPat T bits) : ℚ) ≤ 2 * ulpN T (absPat T bits - 1) := by exact_mod_cast g4
  generalize (ulpN T (absPat T bits) : ℚ) = U at *
  generalize (ulpN T (absPat T bits - 1) : ℚ) = V at *
  generalize (N T (absPat T bits - 1) : ℚ) = M at *
  have k1 : 0 ≤ (U - V) * u := mul_nonneg (by linarith) hu.le
  have k2 : 0 ≤ (2 * V - U) * u := mul_nonneg (by linarith) hu.le
  have k3 : 0 ≤ U * u := mul_nonneg (by linarith) hu.le
  obtain ⟨y1, y2⟩ := hy
  cases T <;> simp only [cutOff, margin] at * <;> constructor <;> push_cast at * <;> linarith

end Floaxie
