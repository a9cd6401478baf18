import Verif.Proof.Ieee

/-! # Uniqueness of the rounded datum -/

namespace Floaxie

open Spec FloatType

theorem W_pos (T : FloatType) : 0 < T.W := by cases T <;> decide

theorem threshold_pos (T : FloatType) : (0 : ℚ) < overflowThreshold T := by
  have h := overflowThreshold_eq T
  have hu := emin_pos T
  have h1 : (0 : ℚ) < N T (posInf T) := by
    have h2 := posInf_pos T
    have := N_lt (T := T) h2
    exact_mod_cast (by omega : 0 < N T (posInf T))
  have h2 : (0 : ℚ) < ((N T (posInf T - 1) : ℚ) + N T (posInf T)) * 2 ^ emin T := by positivity
  linarith

theorem pat_decomp {T : FloatType} {b : Nat} (h : b < 2 ^ T.W) :
    b = absPat T b + signBit T b * 2 ^ (T.W - 1) ∧ (signBit T b = 0 ∨ signBit T b = 1) := by
  unfold absPat signBit
  have h2 : 2 ^ T.W = 2 * 2 ^ (T.W - 1) := by cases T <;> simp [FloatType.W]
  rw [h2] at h
  generalize hm : 2 ^ (T.W - 1) = m at *
  have hmp : 0 < m := by rw [← hm]; positivity
  have hd : b / m < 2 := Nat.div_lt_of_lt_mul (by omega)
  rw [Nat.mod_eq_of_lt hd]
  refine ⟨?_, by generalize b / m = q at hd; omega⟩
  rw [Nat.mul_comm]; exact (Nat.mod_add_div b m).symm

theorem value_zero_iff {T : FloatType} {b : Nat} : value T b = 0 ↔ absPat T b = 0 := by
  have hu := emin_pos T
  have key : mag T b = 0 ↔ absPat T b = 0 := by
    rw [mag_eq]
    constructor
    · intro h
      rcases mul_eq_zero.mp h with h | h
      · have h' : N T (absPat T b) = 0 := by exact_mod_cast h
        rw [← N_zero T] at h'; exact N_inj h'
      · exact absurd h hu.ne'
    · intro h; rw [h, N_zero]; simp
  unfold value
  split_ifs
  · rw [neg_eq_zero, key]
  · exact key

theorem value_sign {T : FloatType} {b : Nat} (hf : IsFinite T b) (h0 : value T b ≠ 0) :
    signBit T b = 1 ↔ value T b < 0 := by
  have hm : 0 ≤ mag T b := by rw [mag_eq]; have := emin_pos T; positivity
  unfold value at h0 ⊢
  split_ifs at h0 ⊢ with h
  · simp only [h, true_iff]
    rcases hm.lt_or_eq with h1 | h1
    · linarith
    · rw [← h1] at h0; simp at h0
  · simp only [h, false_iff]; linarith

theorem value_inj {T : FloatType} {b c : Nat} (hb : IsFinite T b) (hc : IsFinite T c)
    (hs : signBit T b = signBit T c) (h : value T b = value T c) : b = c := by
  have hu := emin_pos T
  have hm : mag T b = mag T c := by
    unfold value at h; rw [hs] at h
    split_ifs at h
    · exact neg_inj.mp h
    · exact h
  rw [mag_eq, mag_eq] at hm
  have h1 := mul_right_cancel₀ hu.ne' hm
  have h2 : absPat T b = absPat T c := N_inj (by exact_mod_cast h1)
  have e1 := (pat_decomp hb.1).1
  have e2 := (pat_decomp hc.1).1
  rw [e1, e2, h2, hs]

theorem value_inj' {T : FloatType} {b c : Nat} (hb : IsFinite T b) (hc : IsFinite T c)
    (h0 : value T b ≠ 0) (h : value T b = value T c) : b = c := by
  apply value_inj hb hc _ h
  have s1 := value_sign hb h0
  have s2 := value_sign hc (h ▸ h0)
  have := (pat_decomp hb.1).2
  have := (pat_decomp hc.1).2
  rw [h] at s1
  have := s1.trans s2.symm
  omega

theorem identifies_roundsTo_value {T : FloatType} {x : ℚ} {b c : Nat} (h : Identifies T x b)
    (hr : RoundsTo T x c) : value T c = value T b := by
  by_contra hne
  have h1 := h.2.2 c hr.1 hne
  rcases hr.2.2.2 b h.1 (fun h => hne h.symm) with h2 | h2
  · exact absurd h1 (by linarith)
  · rw [h2.1] at h1; exact lt_irrefl _ h1

theorem identifies_roundsTo_unique {T : FloatType} {x : ℚ} {b c : Nat} (h : Identifies T x b)
    (h0 : value T b ≠ 0) (hr : RoundsTo T x c) : c = b := by
  have := identifies_roundsTo_value h hr
  exact value_inj' hr.1 h.1 (by rwa [this]) this

/-- An identified number has the sign of the datum it identifies. -/
theorem identifies_sign {T : FloatType} {x : ℚ} {b : Nat} (h : Identifies T x b)
    (h0 : value T b ≠ 0) : (value T b < 0 ↔ x < 0) ∧ x ≠ 0 := by
  have hz : IsFinite T 0 := isFinite_of_lt (posInf_pos T)
  have hz0 : value T 0 = 0 := value_zero_iff.mpr (by simp [absPat])
  have h1 := h.2.2 0 hz (by rw [hz0]; exact h0.symm)
  rw [hz0, sub_zero] at h1
  have h2 := sq_lt_sq.mpr h1
  have h3 : value T b * value T b < 2 * (x * value T b) := by nlinarith
  have h4 : 0 < x * value T b := by
    have := mul_self_pos.mpr h0; linarith
  rcases pos_and_pos_or_neg_and_neg_of_mul_pos h4 with h5 | h5
  · exact ⟨⟨fun h => by linarith, fun h => by linarith⟩, h5.1.ne'⟩
  · exact ⟨⟨fun _ => h5.1, fun _ => h5.2⟩, h5.1.ne⟩

theorem identifies_roundsTo {T : FloatType} {x : ℚ} {b : Nat} (h : Identifies T x b)
    (h0 : value T b ≠ 0) : RoundsTo T x b := by
  refine ⟨h.1, h.2.1, ?_, fun b' hb' hne => Or.inl (h.2.2 b' hb' hne)⟩
  rw [value_sign h.1 h0]; exact (identifies_sign h h0).1

theorem identifies_lt {T : FloatType} {x y : ℚ} {b c : Nat} (hx : Identifies T x b)
    (hy : Identifies T y c) (h : value T b < value T c) : x < y := by
  have h1 := sq_lt_sq.mpr (hx.2.2 c hy.1 h.ne')
  have h2 := sq_lt_sq.mpr (hy.2.2 b hx.1 h.ne)
  nlinarith

/-- The IEEE-754 round-to-nearest-even result is unique (for non-zero results). -/
theorem roundsTo_frac {T : FloatType} (a : Nat) : fracField T a % 2 = absPat T a % 2 := by
  rw [fracField_eq]
  have : 2 ∣ 2 ^ (T.p - 1) := by cases T <;> decide
  exact Nat.mod_mod_of_dvd _ this

end Floaxie
