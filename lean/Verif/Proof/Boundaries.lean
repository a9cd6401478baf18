import Verif.Proof.DiyFp
import Verif.Proof.KComp
import Verif.Model.Grisu

/-! # Boundaries and their scaling -/

namespace Floaxie

open FloatType Spec

/-- Loop of `normalize_from_ieee754`. -/
theorem normIeeeLoop_ok (T : FloatType) : ∀ (n : Nat) (w : DiyFp),
    w.f < 2 ^ (T.p + 1) → 2 ^ (T.p + 1) ≤ w.f * 2 ^ n → ∃ j : Nat,
      normIeeeLoop T n w = .ok { f := w.f * 2 ^ j, e := w.e - j } ∧
      2 ^ T.p ≤ w.f * 2 ^ j ∧ w.f * 2 ^ j < 2 ^ (T.p + 1) := by
  intro n
  induction n with
  | zero => intro w h1 h2; simp at h2; omega
  | succ n ih =>
    intro w h1 h2
    have hWW : 2 ^ (T.p + 1) = 2 * 2 ^ T.p := pow_succ' _ _
    unfold normIeeeLoop
    have hb : nthBit w.f T.p = decide (2 ^ T.p ≤ w.f) := by
      have := highestBit_eq (W := T.p + 1) (by omega) h1
      simpa [highestBit] using this
    rw [hb]
    by_cases hb : 2 ^ T.p ≤ w.f
    · refine ⟨0, ?_, by simpa using hb, by simpa using h1⟩
      simp [hb]
    · simp only [hb, decide_false, Bool.false_eq_true, ↓reduceIte]
      have hpW : 2 ^ (T.p + 1) ≤ 2 ^ T.W := Nat.pow_le_pow_right (by norm_num)
        (by cases T <;> simp [FloatType.p, FloatType.W])
      have hs : (w.f <<< 1) % 2 ^ T.W = w.f * 2 := by
        rw [Nat.shiftLeft_eq, pow_one, Nat.mod_eq_of_lt]; omega
      rw [hs]
      obtain ⟨j, he, h3, h4⟩ := ih { f := w.f * 2, e := w.e - 1 } (by simp; omega)
        (by simp only; rw [mul_assoc, ← pow_succ']; exact h2)
      refine ⟨j + 1, ?_, ?_, ?_⟩
      · rw [he]
        simp only [Except.ok.injEq, DiyFp.mk.injEq]
        refine ⟨by ring, by push_cast; ring⟩
      · rw [pow_succ']; rw [← mul_assoc]; exact h3
      · rw [pow_succ']; rw [← mul_assoc]; exact h4

theorem normalizeFromIeee_ok (T : FloatType) (w : DiyFp) (h0 : w.f ≠ 0) (h1 : w.f < 2 ^ (T.p + 1)) :
    ∃ J : Nat, T.W - T.p - 1 ≤ J ∧
      w.normalizeFromIeee754 T = .ok { f := w.f * 2 ^ J, e := w.e - J } ∧
      2 ^ (T.W - 1) ≤ w.f * 2 ^ J ∧ w.f * 2 ^ J < 2 ^ T.W ∧
      (2 ^ T.p ≤ w.f → J = T.W - T.p - 1) := by
  have hpp : T.p + 1 ≤ T.W := by cases T <;> simp [FloatType.p, FloatType.W]
  obtain ⟨j, hj, h2, h3⟩ := normIeeeLoop_ok T (T.W + 1) w h1 (by
    have : 2 ^ (T.p + 1) ≤ 2 ^ (T.W + 1) := Nat.pow_le_pow_right (by norm_num) (by omega)
    exact le_trans this (Nat.le_mul_of_pos_left _ (Nat.pos_of_ne_zero h0)))
  have hlt : w.f * 2 ^ (j + (T.W - T.p - 1)) < 2 ^ T.W := by
    rw [pow_add, ← mul_assoc]
    calc _ < 2 ^ (T.p + 1) * 2 ^ (T.W - T.p - 1) := Nat.mul_lt_mul_of_pos_right h3 (by positivity)
      _ = 2 ^ T.W := by rw [← pow_add]; congr 1; omega
  refine ⟨j + (T.W - T.p - 1), by omega, ?_, ?_, hlt, ?_⟩
  · unfold DiyFp.normalizeFromIeee754
    rw [assertM_true (by simpa using h0), ok_bind, hj, ok_bind]
    simp only [pure, Except.pure, Except.ok.injEq, DiyFp.mk.injEq]
    constructor
    · rw [Nat.shiftLeft_eq, mul_assoc, ← pow_add, Nat.mod_eq_of_lt hlt]
    · push_cast; ring
  · rw [pow_add, ← mul_assoc]
    calc 2 ^ (T.W - 1) = 2 ^ T.p * 2 ^ (T.W - T.p - 1) := by rw [← pow_add]; congr 1; omega
      _ ≤ _ := Nat.mul_le_mul_right _ h2
  · intro hp
    have : j = 0 := by
      by_contra hne
      have : 2 ^ 1 ≤ 2 ^ j := Nat.pow_le_pow_right (by norm_num) (by omega)
      have h4 : 2 ^ T.p * 2 ≤ w.f * 2 ^ j := Nat.mul_le_mul hp (by omega)
      rw [pow_succ] at h3; omega
    omega

/-- Shift used for the lower boundary: one more at a power of two. -/
def bshift (T : FloatType) (f : Nat) : Nat := if f = 2 ^ (T.p - 1) then 2 else 1

/-- `boundaries` returns the normalized upper boundary `(2f+1)*2^(e-1)` and the
lower boundary in the same scale. -/
theorem boundaries_ok (T : FloatType) (bits : Nat) (hb : bits < 2 ^ T.W)
    (hfin : absPat T bits < posInf T) (h0 : absPat T bits ≠ 0) :
    ∃ (J : Nat) (E : Int), let f := sigN T (absPat T bits)
      let sh := bshift T f
      E = emin T + ((absPat T bits / 2 ^ (T.p - 1) - 1 : Nat) : Int) - 1 - J ∧
      T.W - T.p - 1 ≤ J ∧ 0 < f ∧ f < 2 ^ T.p ∧
      (2 ^ (T.p - 1) ≤ f → J = T.W - T.p - 1) ∧
      2 ^ (T.W - 1) ≤ (2 * f + 1) * 2 ^ J ∧ (2 * f + 1) * 2 ^ J < 2 ^ T.W ∧
      bndLo T ≤ E ∧ E ≤ bndHi T ∧
      boundaries T bits = .ok (⟨(f * 2 ^ sh - 1) * 2 ^ (J + 1 - sh), E⟩, ⟨(2 * f + 1) * 2 ^ J, E⟩) := by
  have hf1 : 0 < sigN T (absPat T bits) := by
    by_contra hne
    have : sigN T (absPat T bits) = 0 := by omega
    have h3 : N T (absPat T bits) = 0 := by rw [N_eq, this, zero_mul]
    have := N_inj (h3.trans (N_zero T).symm)
    exact h0 this
  have hf2 := sigN_lt T (absPat T bits)
  have hE : absPat T bits / 2 ^ (T.p - 1) < expMax T := by
    rw [Nat.div_lt_iff_lt_mul (by positivity)]; exact hfin
  have hsub : sigN T (absPat T bits) < 2 ^ (T.p - 1) → absPat T bits / 2 ^ (T.p - 1) = 0 := by
    intro h; unfold sigN at h; split_ifs at h with h1
    · exact h1
    · omega
  unfold boundaries
  rw [ofFloat_eq T bits hb]
  generalize sigN T (absPat T bits) = f at *
  generalize absPat T bits / 2 ^ (T.p - 1) = x at *
  have hpW : 2 ^ (T.p + 2) ≤ 2 ^ T.W := Nat.pow_le_pow_right (by norm_num)
    (by cases T <;> simp [FloatType.p, FloatType.W])
  have hp2 : 2 ^ (T.p + 2) = 4 * 2 ^ T.p := by rw [pow_add]; ring
  have hp1 : 2 ^ (T.p + 1) = 2 * 2 ^ T.p := by rw [pow_add]; ring
  have hpp : 2 ^ T.p = 2 * 2 ^ (T.p - 1) := by cases T <;> simp [FloatType.p]
  have e1 : ((f <<< 1) % 2 ^ T.W + 1) % 2 ^ T.W = 2 * f + 1 := by
    rw [Nat.shiftLeft_eq, pow_one, Nat.mod_eq_of_lt (show f * 2 < 2 ^ T.W by omega),
      Nat.mod_eq_of_lt (by omega)]; ring
  simp only [e1]
  obtain ⟨J, hJ1, hJ2, hJ3, hJ4, hJ5⟩ := normalizeFromIeee_ok T
    ⟨2 * f + 1, emin T + ((x - 1 : Nat) : Int) - 1⟩ (by simp) (by simp; omega)
  simp only at hJ2 hJ3 hJ4 hJ5
  rw [hJ2, ok_bind]
  have hsh : (1 + if (f == T.hiddenBit) = true then 1 else 0) = bshift T f := by
    unfold bshift; rw [hiddenBit_eq]
    by_cases h : f = 2 ^ (T.p - 1) <;> simp [h]
  simp only [hsh]
  have hshle : bshift T f ≤ 2 := by unfold bshift; split_ifs <;> omega
  have hshge : 1 ≤ bshift T f := by unfold bshift; split_ifs <;> omega
  have hJ6 : 7 ≤ J := by revert hJ1; cases T <;> simp only [FloatType.p, FloatType.W] <;> omega
  have hJW : J < T.W := by
    by_contra hne
    have : 2 ^ T.W ≤ 2 ^ J := Nat.pow_le_pow_right (by norm_num) (by omega)
    have : 1 * 2 ^ J ≤ (2 * f + 1) * 2 ^ J := Nat.mul_le_mul_right _ (by omega)
    omega
  have hfs : f * 2 ^ bshift T f < 2 ^ T.W := by
    calc f * 2 ^ bshift T f ≤ f * 2 ^ 2 := Nat.mul_le_mul_left _ (Nat.pow_le_pow_right (by norm_num) hshle)
      _ < 2 ^ T.W := by omega
  have hfs0 : 0 < f * 2 ^ bshift T f := by positivity
  have e2 : ((f <<< bshift T f) % 2 ^ T.W + 2 ^ T.W - 1) % 2 ^ T.W = f * 2 ^ bshift T f - 1 := by
    rw [Nat.shiftLeft_eq, Nat.mod_eq_of_lt hfs,
      show f * 2 ^ bshift T f + 2 ^ T.W - 1 = (f * 2 ^ bshift T f - 1) + 2 ^ T.W by omega,
      Nat.add_mod_right, Nat.mod_eq_of_lt (by omega)]
  simp only [e2]
  have hle : (f * 2 ^ bshift T f - 1) * 2 ^ (J + 1 - bshift T f) ≤ (2 * f + 1) * 2 ^ J := by
    calc (f * 2 ^ bshift T f - 1) * 2 ^ (J + 1 - bshift T f)
        ≤ f * 2 ^ bshift T f * 2 ^ (J + 1 - bshift T f) := Nat.mul_le_mul_right _ (by omega)
      _ = 2 * f * 2 ^ J := by
        rw [mul_assoc, ← pow_add, show bshift T f + (J + 1 - bshift T f) = J + 1 by omega]; ring
      _ ≤ _ := Nat.mul_le_mul_right _ (by omega)
  have hamt : (emin T + ((x - 1 : Nat) : Int) - (bshift T f : Int)) -
      (emin T + ((x - 1 : Nat) : Int) - 1 - (J : Int)) = ((J + 1 - bshift T f : Nat) : Int) := by
    push_cast [Nat.cast_sub (show bshift T f ≤ J + 1 by omega)]; ring
  have e3 : shlM T.W (f * 2 ^ bshift T f - 1) ((emin T + ((x - 1 : Nat) : Int) - (bshift T f : Int)) -
      (emin T + ((x - 1 : Nat) : Int) - 1 - (J : Int))) =
      .ok ((f * 2 ^ bshift T f - 1) * 2 ^ (J + 1 - bshift T f)) := by
    rw [hamt]
    unfold shlM
    rw [if_pos (by omega), Int.toNat_natCast, Nat.shiftLeft_eq, Nat.mod_eq_of_lt (by omega)]
  rw [e3, ok_bind]
  refine ⟨J, emin T + ((x - 1 : Nat) : Int) - 1 - J, rfl, hJ1, hf1, hf2, ?_, hJ3, hJ4, ?_, ?_, rfl⟩
  · intro h; exact hJ5 (by omega)
  · -- lower bound
    have h3 : 3 * 2 ^ J < 2 ^ T.W := lt_of_le_of_lt (Nat.mul_le_mul_right _ (by omega)) hJ4
    have hJ7 : J + 2 ≤ T.W := by
      by_contra hne
      have hJe : J = T.W - 1 := by omega
      rw [hJe] at h3
      have : 2 ^ T.W = 2 * 2 ^ (T.W - 1) := by cases T <;> simp [FloatType.W]
      omega
    clear * - hJ7
    cases T <;> simp only [bndLo, emin, FloatType.minExp, FloatType.p, FloatType.W] at * <;> omega
  · clear * - hJ1 hE
    cases T <;> simp only [bndHi, emin, FloatType.minExp, FloatType.p, FloatType.W, expMax] at * <;> omega

end Floaxie
