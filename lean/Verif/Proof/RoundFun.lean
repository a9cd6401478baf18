import Verif.Proof.IeeeMore
import Mathlib.Data.Nat.Find

/-! # `RoundsTo` is a function: validation of the specification of rounding -/

namespace Floaxie

open Spec FloatType

theorem roundsTo_neg {T : FloatType} {x : ℚ} {b : Nat} (hx : x ≠ 0) (h : RoundsTo T x b) :
    RoundsTo T (-x) (neg T b) := by
  obtain ⟨h1, h2, h3, h4⟩ := h
  obtain ⟨s1, s2, s3⟩ := signBit_neg h1.1
  refine ⟨isFinite_neg h1, by rwa [abs_neg], ?_, ?_⟩
  · have := (pat_decomp h1.1).2
    have e : signBit T (neg T b) = 1 ↔ ¬ signBit T b = 1 := by omega
    rw [e, h3]
    constructor
    · intro h; push Not at h
      have := lt_of_le_of_ne h hx.symm
      linarith
    · intro h; linarith
  · intro b' hb' hne
    have h5 := h4 (neg T b') (isFinite_neg hb') (by
      rw [value_neg hb'.1]; rw [value_neg h1.1] at hne
      intro he; apply hne; rw [← he]; ring)
    rw [value_neg hb'.1] at h5
    rw [value_neg h1.1, roundsTo_frac, s2, ← roundsTo_frac]
    rw [show -x - -value T b = -(x - value T b) by ring, abs_neg,
      show -x - value T b' = -(x - -value T b') by ring, abs_neg]
    exact h5

theorem roundsTo_pos {T : FloatType} {x : ℚ} {b : Nat} (hx : 0 ≤ x) (h : RoundsTo T x b) :
    value T b = N T (absPat T b) * 2 ^ emin T := by
  have : signBit T b ≠ 1 := by rw [Ne, h.2.2.1]; linarith
  unfold value
  rw [if_neg this, mag_eq]

theorem roundsTo_le {T : FloatType} {x : ℚ} {b b' : Nat} (h : RoundsTo T x b)
    (hb' : IsFinite T b') : |x - value T b| ≤ |x - value T b'| := by
  by_cases he : value T b' = value T b
  · rw [he]
  · rcases h.2.2.2 b' hb' he with h | h
    · exact h.le
    · exact h.1.le

theorem roundsTo_unique_pos {T : FloatType} {x : ℚ} {b c : Nat} (hx : 0 < x)
    (hb : RoundsTo T x b) (hc : RoundsTo T x c) (hlt : absPat T b < absPat T c) : False := by
  have hu := emin_pos T
  have vb := roundsTo_pos hx.le hb
  have vc := roundsTo_pos hx.le hc
  have hcl := absPat_lt_posInf hc.1
  have hNlt := N_lt (T := T) hlt
  have hNlt' : (N T (absPat T b) : ℚ) < N T (absPat T c) := by exact_mod_cast hNlt
  have hvlt : value T b < value T c := by
    rw [vb, vc]; exact mul_lt_mul_of_pos_right hNlt' hu
  have e : |x - value T b| = |x - value T c| :=
    le_antisymm (roundsTo_le hb hc.1) (roundsTo_le hc hb.1)
  have f1 : fracField T b % 2 = 0 := by
    rcases hb.2.2.2 c hc.1 hvlt.ne' with h | h
    · rw [e] at h; exact absurd h (lt_irrefl _)
    · exact h.2
  have f2 : fracField T c % 2 = 0 := by
    rcases hc.2.2.2 b hb.1 hvlt.ne with h | h
    · rw [e] at h; exact absurd h (lt_irrefl _)
    · exact h.2
  rw [roundsTo_frac] at f1 f2
  have hlt' : absPat T b + 1 < absPat T c := by omega
  have hfin : IsFinite T (absPat T b + 1) := isFinite_of_lt (by omega)
  have vm : value T (absPat T b + 1) = N T (absPat T b + 1) * 2 ^ emin T := value_of_lt (by omega)
  have m1 := N_lt (T := T) (Nat.lt_succ_self (absPat T b))
  have m2 := N_lt (T := T) hlt'
  have m1' : value T b < value T (absPat T b + 1) := by
    rw [vb, vm]; exact mul_lt_mul_of_pos_right (by exact_mod_cast m1) hu
  have m2' : value T (absPat T b + 1) < value T c := by
    rw [vc, vm]; exact mul_lt_mul_of_pos_right (by exact_mod_cast m2) hu
  have h5 := roundsTo_le hb hfin
  have e2 : 2 * x = value T b + value T c := by
    rcases abs_eq_abs.mp e with h | h <;> linarith
  have h6 : |x - value T b| = x - value T b := abs_of_nonneg (by linarith)
  rw [h6] at h5
  rcases le_total 0 (x - value T (absPat T b + 1)) with h7 | h7
  · rw [abs_of_nonneg h7] at h5; linarith
  · rw [abs_of_nonpos h7] at h5; linarith

/-- Rounding to nearest even has at most one result. -/
theorem roundsTo_unique {T : FloatType} {x : ℚ} {b c : Nat} (hb : RoundsTo T x b)
    (hc : RoundsTo T x c) : b = c := by
  have hs : signBit T b = signBit T c := by
    have h1 := hb.2.2.1
    have h2 := hc.2.2.1
    have := (pat_decomp hb.1.1).2
    have := (pat_decomp hc.1.1).2
    have : signBit T b = 1 ↔ signBit T c = 1 := h1.trans h2.symm
    omega
  have key : ∀ (x : ℚ) (b c : Nat), 0 < x → RoundsTo T x b → RoundsTo T x c →
      absPat T b = absPat T c := by
    intro x b c hx hb hc
    rcases lt_trichotomy (absPat T b) (absPat T c) with h | h | h
    · exact (roundsTo_unique_pos hx hb hc h).elim
    · exact h
    · exact (roundsTo_unique_pos hx hc hb h).elim
  have habs : absPat T b = absPat T c := by
    rcases lt_trichotomy x 0 with h | h | h
    · have := key (-x) (neg T b) (neg T c) (by linarith) (roundsTo_neg h.ne hb) (roundsTo_neg h.ne hc)
      rwa [(signBit_neg hb.1.1).2.1, (signBit_neg hc.1.1).2.1] at this
    · subst h
      have hz : IsFinite T 0 := isFinite_of_lt (posInf_pos T)
      have hz0 : value T 0 = 0 := value_zero_iff.mpr (by simp [absPat])
      have h1 := roundsTo_le hb hz
      have h2 := roundsTo_le hc hz
      rw [hz0] at h1 h2
      simp only [zero_sub, abs_neg, sub_zero, abs_zero, abs_nonpos_iff] at h1 h2
      rw [value_zero_iff.mp h1, value_zero_iff.mp h2]
    · exact key x b c h hb hc
  rw [(pat_decomp hb.1.1).1, (pat_decomp hc.1.1).1, hs, habs]

/-- Rounding to nearest even has a result, below the overflow threshold. -/
theorem roundsTo_exists_pos {T : FloatType} {x : ℚ} (hx0 : 0 ≤ x) (hx : x < overflowThreshold T) :
    ∃ b, RoundsTo T x b := by
  have hu := emin_pos T
  set X := x / 2 ^ emin T with hX
  have hxX : x = X * 2 ^ emin T := by rw [hX]; field_simp
  have hX0 : 0 ≤ X := by positivity
  have hthr := overflowThreshold_eq T
  have hX2 : 2 * X < N T (posInf T - 1) + N T (posInf T) := by
    by_contra hc
    push Not at hc
    have := mul_le_mul_of_nonneg_right hc hu.le
    rw [← hthr] at this
    linarith
  have hle : (N T (posInf T - 1) : ℚ) ≤ N T (posInf T) := by exact_mod_cast N_le (T := T) (by omega)
  have hXi : X < N T (posInf T) := by linarith
  -- the largest pattern not above
  obtain ⟨a, ha1, ha2⟩ : ∃ a, (N T a : ℚ) ≤ X ∧ X < N T (a + 1) := by
    have hex : ∃ a, X < N T a := ⟨_, hXi⟩
    classical
    have h1 := Nat.find_spec hex
    have h2 : Nat.find hex ≠ 0 := by
      intro h0
      rw [h0, N_zero] at h1
      push_cast at h1; linarith
    refine ⟨Nat.find hex - 1, ?_, by rwa [Nat.sub_add_cancel (by omega)]⟩
    have := Nat.find_min hex (m := Nat.find hex - 1) (by omega)
    exact not_lt.mp this
  have hapi : a < posInf T := by
    by_contra hc
    have : (N T (posInf T) : ℚ) ≤ N T a := by exact_mod_cast N_le (T := T) (not_lt.mp hc)
    linarith
  have final : ∀ c : Nat, c < posInf T →
      (∀ a', a' ≠ c → |X - N T c| < |X - N T a'| ∨ (|X - N T c| = |X - N T a'| ∧ c % 2 = 0)) →
      RoundsTo T x c := by
    intro c hc h
    have hvc := value_of_lt hc
    refine ⟨isFinite_of_lt hc, by rwa [abs_of_nonneg hx0], ?_, ?_⟩
    · rw [signBit_of_lt hc]
      constructor
      · intro h; omega
      · intro h; linarith
    · intro b' hb' hne
      have hmul : ∀ y : ℚ, |x - y * 2 ^ emin T| = |X - y| * 2 ^ emin T := by
        intro y
        rw [hxX, ← sub_mul, abs_mul, abs_of_pos hu]
      rw [roundsTo_frac, absPat_of_lt hc, hvc, hmul]
      rcases value_cases T b' with e | e
      · rw [e, hmul]
        have hne' : absPat T b' ≠ c := by
          rintro rfl; exact hne (by rw [e, hvc])
        rcases h _ hne' with h | h
        · exact Or.inl (mul_lt_mul_of_pos_right h hu)
        · exact Or.inr ⟨by rw [h.1], h.2⟩
      · rw [e, ← neg_mul, hmul]
        by_cases hz : absPat T b' = 0
        · have hc0 : (0 : ℕ) ≠ c := by
            rintro rfl
            apply hne
            rw [e, hvc, hz, N_zero]; simp
          rw [hz]
          have := h 0 hc0
          rw [N_zero] at this ⊢
          rw [Nat.cast_zero, neg_zero]
          rw [Nat.cast_zero] at this
          rcases this with h | h
          · exact Or.inl (mul_lt_mul_of_pos_right h hu)
          · exact Or.inr ⟨by rw [h.1], h.2⟩
        · have hp : 0 < N T (absPat T b') := by
            have := N_lt (T := T) (Nat.pos_of_ne_zero hz)
            rw [N_zero] at this; exact this
          have hp' : (0 : ℚ) < N T (absPat T b') := by exact_mod_cast hp
          left
          apply mul_lt_mul_of_pos_right _ hu
          have h1 : |X - -(N T (absPat T b') : ℚ)| = X + N T (absPat T b') := by
            rw [abs_of_nonneg (by linarith)]; ring
          have h2 : |X - N T c| ≤ X := by
            by_cases hc0 : c = 0
            · subst hc0; rw [N_zero]; simp [abs_of_nonneg hX0]
            · have := h 0 (Ne.symm hc0)
              rw [N_zero, Nat.cast_zero, sub_zero, abs_of_nonneg hX0] at this
              rcases this with h | h
              · exact h.le
              · exact h.1.le
          rw [h1]; linarith
  have hmono : ∀ c d : Nat, c ≤ d → (N T c : ℚ) ≤ N T d := fun c d h => by
    exact_mod_cast N_le (T := T) h
  have hsmono : ∀ c d : Nat, c < d → (N T c : ℚ) < N T d := fun c d h => by
    exact_mod_cast N_lt (T := T) h
  by_cases hdown : 2 * X < N T a + N T (a + 1) ∨ (2 * X = N T a + N T (a + 1) ∧ a % 2 = 0)
  · refine ⟨a, final a hapi ?_⟩
    intro a' hne
    rw [abs_of_nonneg (by linarith)]
    rcases Nat.lt_or_gt_of_ne hne with h | h
    · have := hsmono _ _ h
      rw [abs_of_nonneg (by linarith)]
      left; linarith
    · have := hmono (a + 1) a' h
      rw [abs_of_nonpos (by linarith)]
      rcases hdown with h1 | ⟨h1, h2⟩
      · left; linarith
      · rcases this.lt_or_eq with h3 | h3
        · left; linarith
        · right; exact ⟨by linarith, h2⟩
  · push Not at hdown
    obtain ⟨d1, d2⟩ := hdown
    have hapi' : a + 1 < posInf T := by
      by_contra hc
      have e : a + 1 = posInf T := by omega
      have e' : a = posInf T - 1 := by omega
      rw [e, e'] at d1
      linarith
    refine ⟨a + 1, final (a + 1) hapi' ?_⟩
    intro a' hne
    rw [abs_of_nonpos (by linarith)]
    rcases Nat.lt_or_gt_of_ne hne with h | h
    · have := hmono a' a (by omega)
      rw [abs_of_nonneg (by linarith)]
      rcases d1.lt_or_eq with h1 | h1
      · left; linarith
      · have h2 := d2 h1.symm
        rcases this.lt_or_eq with h3 | h3
        · left; linarith
        · right; exact ⟨by linarith, by omega⟩
    · have := hsmono _ _ h
      rw [abs_of_nonpos (by linarith)]
      left; linarith

/-- Every number below the overflow threshold rounds to exactly one datum. -/
theorem roundsTo_total {T : FloatType} {x : ℚ} (hx : |x| < overflowThreshold T) :
    ∃! b, RoundsTo T x b := by
  have hex : ∃ b, RoundsTo T x b := by
    rcases lt_or_ge x 0 with h | h
    · rw [abs_of_neg h] at hx
      obtain ⟨b, hb⟩ := roundsTo_exists_pos (by linarith) hx
      exact ⟨neg T b, by simpa using roundsTo_neg (neg_ne_zero.mpr h.ne) hb⟩
    · rw [abs_of_nonneg h] at hx
      exact roundsTo_exists_pos h hx
  obtain ⟨b, hb⟩ := hex
  exact ⟨b, hb, fun c hc => roundsTo_unique hc hb⟩

/-- Rounding is monotone. -/
theorem roundsTo_mono {T : FloatType} {x y : ℚ} {b c : Nat} (hb : RoundsTo T x b)
    (hc : RoundsTo T y c) (h : x ≤ y) : value T b ≤ value T c := by
  rcases h.lt_or_eq with h | h
  · by_contra hlt
    push Not at hlt
    have h1 := sq_le_sq.mpr (roundsTo_le hb hc.1)
    have h2 := sq_le_sq.mpr (roundsTo_le hc hb.1)
    have h3 : 0 < (value T b - value T c) * (y - x) := mul_pos (by linarith) (by linarith)
    nlinarith
  · subst h
    rw [roundsTo_unique hb hc]

end Floaxie
