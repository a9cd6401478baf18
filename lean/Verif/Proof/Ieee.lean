import Mathlib.Tactic.Ring
import Mathlib.Tactic.Linarith
import Mathlib.Tactic.NormNum
import Mathlib.Tactic.FieldSimp
import Mathlib.Tactic.Positivity
import Mathlib.Order.Monotone.Basic
import Mathlib.Algebra.Order.Group.Int
import Verif.Spec.Ieee

/-! # Facts about IEEE data, in integer units of the least subnormal -/

namespace Floaxie

open FloatType Spec

/-- Magnitude of the non-negative pattern `a`, in units of `2^emin`; also defined
beyond the finite patterns, where it continues the same rule. -/
def N (T : FloatType) (a : Nat) : Nat :=
  (if a / 2 ^ (T.p - 1) = 0 then a % 2 ^ (T.p - 1) else 2 ^ (T.p - 1) + a % 2 ^ (T.p - 1)) *
    2 ^ (a / 2 ^ (T.p - 1) - 1)

/-- Unit in the last place of the pattern `a`, in units of `2^emin`. -/
def ulpN (T : FloatType) (a : Nat) : Nat := 2 ^ (a / 2 ^ (T.p - 1) - 1)

theorem N_zero (T : FloatType) : N T 0 = 0 := by simp [N]

theorem N_succ (T : FloatType) (a : Nat) : N T (a + 1) = N T a + ulpN T a := by
  unfold N ulpN
  generalize hP : 2 ^ (T.p - 1) = P
  have hP0 : 0 < P := by rw [← hP]; positivity
  have hd := Nat.div_add_mod a P
  have hm := Nat.mod_lt a hP0
  generalize a / P = E at *
  generalize a % P = F at *
  by_cases hF : F + 1 < P
  · have h1 : (a + 1) / P = E := by
      rw [← hd, add_assoc, Nat.mul_add_div hP0, Nat.div_eq_of_lt hF, add_zero]
    have h2 : (a + 1) % P = F + 1 := by
      rw [← hd, add_assoc, Nat.mul_add_mod, Nat.mod_eq_of_lt hF]
    rw [h1, h2]
    split_ifs <;> ring
  · have hF' : F + 1 = P := by omega
    have hs : a + 1 = P * (E + 1) := by rw [← hd, mul_add, mul_one, ← hF']; ring
    have h1 : (a + 1) / P = E + 1 := by rw [hs, Nat.mul_div_cancel_left _ hP0]
    have h2 : (a + 1) % P = 0 := by rw [hs, Nat.mul_mod_right]
    rw [h1, h2, if_neg (by omega), Nat.add_sub_cancel, ← hF']
    rcases Nat.eq_zero_or_pos E with h | h
    · subst h; simp
    · obtain ⟨k, rfl⟩ : ∃ k, E = k + 1 := ⟨E - 1, by omega⟩
      rw [if_neg (by omega), Nat.add_sub_cancel]
      ring

theorem ulpN_pos (T : FloatType) (a : Nat) : 0 < ulpN T a := by unfold ulpN; positivity

theorem N_strictMono (T : FloatType) : StrictMono (N T) :=
  strictMono_nat_of_lt_succ fun a => by rw [N_succ]; have := ulpN_pos T a; omega

theorem N_le {T : FloatType} {a b : Nat} (h : a ≤ b) : N T a ≤ N T b :=
  (N_strictMono T).monotone h

theorem N_lt {T : FloatType} {a b : Nat} (h : a < b) : N T a < N T b := N_strictMono T h

theorem N_inj {T : FloatType} {a b : Nat} (h : N T a = N T b) : a = b :=
  (N_strictMono T).injective h

/-- The pattern of infinity continues as `2^maxExp`. -/
theorem N_posInf (T : FloatType) : (N T (posInf T) : ℚ) * 2 ^ emin T = 2 ^ T.maxExp := by
  have h1 : posInf T / 2 ^ (T.p - 1) = expMax T := by
    unfold posInf; exact Nat.mul_div_cancel _ (by positivity)
  have h2 : posInf T % 2 ^ (T.p - 1) = 0 := by
    unfold posInf; exact Nat.mul_mod_left _ _
  have h3 : expMax T ≠ 0 := by cases T <;> simp [expMax, FloatType.W, FloatType.p]
  unfold N
  rw [h1, h2, if_neg h3, add_zero, ← pow_add]
  push_cast
  rw [← zpow_natCast, ← zpow_add₀ (by norm_num)]
  congr 1
  cases T <;> simp [expMax, FloatType.W, FloatType.p, emin, FloatType.minExp, FloatType.maxExp]

theorem ulpN_posInf_pred (T : FloatType) :
    (ulpN T (posInf T - 1) : ℚ) * 2 ^ emin T = 2 ^ (T.maxExp - T.p) := by
  have h1 : (posInf T - 1) / 2 ^ (T.p - 1) = expMax T - 1 := by
    cases T <;> simp [posInf, expMax, FloatType.W, FloatType.p]
  unfold ulpN
  rw [h1]
  push_cast
  rw [← zpow_natCast, ← zpow_add₀ (by norm_num)]
  congr 1
  cases T <;> simp [expMax, FloatType.W, FloatType.p, emin, FloatType.minExp, FloatType.maxExp]

theorem posInf_pos (T : FloatType) : 0 < posInf T := by
  cases T <;> simp [posInf, expMax, FloatType.W, FloatType.p]

/-- The overflow threshold is the upper boundary of the largest finite value. -/
theorem overflowThreshold_eq (T : FloatType) :
    2 * overflowThreshold T =
      ((N T (posInf T - 1) : ℚ) + N T (posInf T)) * 2 ^ emin T := by
  have h1 := N_posInf T
  have h2 := ulpN_posInf_pred T
  have h3 := N_succ T (posInf T - 1)
  rw [Nat.sub_add_cancel (posInf_pos T)] at h3
  have h4 : (N T (posInf T - 1) : ℚ) = N T (posInf T) - ulpN T (posInf T - 1) := by
    rw [h3]; push_cast; ring
  rw [h4]
  unfold overflowThreshold
  have h5 : (2 : ℚ) ^ (T.maxExp - T.p) = 2 * 2 ^ (T.maxExp - T.p - 1) := by
    rw [← zpow_one_add₀ (by norm_num)]; congr 1; ring
  calc (2 : ℚ) * (2 ^ T.maxExp - 2 ^ (T.maxExp - T.p - 1))
      = 2 ^ T.maxExp + 2 ^ T.maxExp - 2 ^ (T.maxExp - T.p) := by rw [h5]; ring
    _ = _ := by rw [← h1, ← h2]; ring

theorem emin_pos (T : FloatType) : (0 : ℚ) < 2 ^ emin T := by positivity

/-- Sign-cleared pattern. -/
def absPat (T : FloatType) (b : Nat) : Nat := b % 2 ^ (T.W - 1)

theorem expField_eq (T : FloatType) (b : Nat) :
    expField T b = absPat T b / 2 ^ (T.p - 1) := by
  cases T <;> simp only [expField, absPat, FloatType.W, FloatType.p] <;> omega

theorem fracField_eq (T : FloatType) (b : Nat) :
    fracField T b = absPat T b % 2 ^ (T.p - 1) := by
  cases T <;> simp only [fracField, absPat, FloatType.W, FloatType.p] <;> omega

theorem absPat_lt_posInf {T : FloatType} {b : Nat} (h : IsFinite T b) :
    absPat T b < posInf T := by
  have h2 := h.2
  rw [expField_eq] at h2
  have : absPat T b < 2 ^ (T.W - 1) := Nat.mod_lt _ (by positivity)
  revert h2 this
  generalize absPat T b = a
  cases T <;> simp only [posInf, expMax, FloatType.W, FloatType.p] <;> omega

theorem absPat_of_lt {T : FloatType} {b : Nat} (h : b < posInf T) : absPat T b = b := by
  unfold absPat
  apply Nat.mod_eq_of_lt
  revert h
  cases T <;> simp only [posInf, expMax, FloatType.W, FloatType.p] <;> omega

theorem isFinite_of_lt {T : FloatType} {b : Nat} (h : b < posInf T) : IsFinite T b := by
  unfold IsFinite
  rw [expField_eq, absPat_of_lt h]
  revert h
  cases T <;> simp only [posInf, expMax, FloatType.W, FloatType.p] <;> omega

theorem signBit_of_lt {T : FloatType} {b : Nat} (h : b < posInf T) : signBit T b = 0 := by
  unfold signBit
  revert h
  cases T <;> simp only [posInf, expMax, FloatType.W, FloatType.p] <;> omega

theorem mag_eq {T : FloatType} (b : Nat) :
    mag T b = (N T (absPat T b) : ℚ) * 2 ^ emin T := by
  unfold mag N
  rw [expField_eq, fracField_eq]
  generalize absPat T b / 2 ^ (T.p - 1) = E
  generalize absPat T b % 2 ^ (T.p - 1) = F
  by_cases hE : E = 0
  · simp [hE]
  · simp only [hE, if_false]
    obtain ⟨k, rfl⟩ : ∃ k, E = k + 1 := ⟨E - 1, by omega⟩
    rw [show emin T + ((k + 1 : Nat) : Int) - 1 = k + emin T by push_cast; ring,
      zpow_add₀ (by norm_num), zpow_natCast]
    push_cast
    ring

theorem value_of_lt {T : FloatType} {b : Nat} (h : b < posInf T) :
    value T b = (N T b : ℚ) * 2 ^ emin T := by
  unfold value
  rw [signBit_of_lt h, if_neg (by norm_num), mag_eq, absPat_of_lt h]

/-- Value of any finite pattern: plus or minus that of the sign-cleared pattern. -/
theorem value_cases (T : FloatType) (b : Nat) :
    value T b = (N T (absPat T b) : ℚ) * 2 ^ emin T ∨
    value T b = -((N T (absPat T b) : ℚ) * 2 ^ emin T) := by
  unfold value
  rw [mag_eq]
  split_ifs
  · right; rfl
  · left; rfl

/-- A non-negative number strictly between the midpoints around the pattern `a`
is strictly closest to `a`. -/
theorem closest_pos {T : FloatType} {a : Nat} {X : ℚ} (ha : a < posInf T) (hX : 0 ≤ X)
    (hlo : a = 0 ∨ (N T (a - 1) : ℚ) + N T a < 2 * X)
    (hhi : 2 * X < (N T a : ℚ) + N T (a + 1)) :
    Identifies T (X * 2 ^ emin T) a := by
  have hu := emin_pos T
  refine ⟨isFinite_of_lt ha, ?_, ?_⟩
  · rw [abs_of_nonneg (by positivity)]
    have h1 := overflowThreshold_eq T
    have h2 : N T a ≤ N T (posInf T - 1) := N_le (by omega)
    have h3 : N T (a + 1) ≤ N T (posInf T) := N_le (by omega)
    have h2' : (N T a : ℚ) ≤ N T (posInf T - 1) := by exact_mod_cast h2
    have h3' : (N T (a + 1) : ℚ) ≤ N T (posInf T) := by exact_mod_cast h3
    have h4 : 2 * X < (N T (posInf T - 1) : ℚ) + N T (posInf T) := by linarith
    have h5 := mul_lt_mul_of_pos_right h4 hu
    linarith
  · intro b' hb' hne
    rw [value_of_lt ha] at hne ⊢
    have hb'' := absPat_lt_posInf hb'
    -- reduce to units
    suffices H : ∃ v : ℚ, value T b' = v * 2 ^ emin T ∧ |X - N T a| < |X - v| by
      obtain ⟨v, hv, hlt⟩ := H
      rw [hv, ← sub_mul, ← sub_mul, abs_mul, abs_mul]
      exact mul_lt_mul_of_pos_right hlt (abs_pos.mpr hu.ne')
    rcases value_cases T b' with h | h
    · refine ⟨_, h, ?_⟩
      rw [h] at hne
      have hne' : absPat T b' ≠ a := by
        intro he; apply hne; rw [he]
      rcases Nat.lt_or_gt_of_ne hne' with hlt | hgt
      · rcases hlo with h0 | hlo
        · omega
        · have h1 : (N T (absPat T b') : ℚ) ≤ N T (a - 1) := by
            exact_mod_cast N_le (by omega)
          have h2 : (N T (a - 1) : ℚ) < N T a := by exact_mod_cast N_lt (by omega)
          rw [abs_of_pos (show (0 : ℚ) < X - N T (absPat T b') by linarith)]
          rw [abs_lt]; constructor <;> linarith
      · have h1 : (N T (a + 1) : ℚ) ≤ N T (absPat T b') := by
          exact_mod_cast N_le (by omega)
        have h2 : (N T a : ℚ) < N T (a + 1) := by exact_mod_cast N_lt (by omega)
        rw [abs_of_neg (show X - N T (absPat T b') < 0 by linarith)]
        rw [abs_lt]; constructor <;> linarith
    · refine ⟨-(N T (absPat T b') : ℚ), by rw [h]; ring, ?_⟩
      have h0 : (0 : ℚ) ≤ N T (absPat T b') := by positivity
      rw [h] at hne
      rw [abs_of_nonneg (show (0 : ℚ) ≤ X - -(N T (absPat T b') : ℚ) by linarith)]
      rcases Nat.eq_zero_or_pos a with ha0 | ha0
      · subst ha0
        rw [N_zero] at hne ⊢
        have h1 : N T (absPat T b') ≠ 0 := by
          intro h2; apply hne; rw [h2]; simp
        have h2 : (0 : ℚ) < N T (absPat T b') := by exact_mod_cast Nat.pos_of_ne_zero h1
        rw [Nat.cast_zero, sub_zero, abs_of_nonneg hX]; linarith
      · rcases hlo with h1 | hlo
        · omega
        · have h1 : (0 : ℚ) ≤ N T (a - 1) := by positivity
          have h2 : (N T (a - 1) : ℚ) < N T a := by exact_mod_cast N_lt (by omega)
          rw [abs_lt]; constructor <;> linarith

/-- Symmetric in the sign. -/
theorem signBit_neg {T : FloatType} {b : Nat} (h : b < 2 ^ T.W) :
    signBit T (neg T b) = 1 - signBit T b ∧ absPat T (neg T b) = absPat T b ∧
      neg T b < 2 ^ T.W := by
  have key : ∀ (w b : Nat), b < 2 ^ (w + 1) →
      b ^^^ 2 ^ w = if b < 2 ^ w then b + 2 ^ w else b - 2 ^ w := by
    intro w b hb
    have hxor : ∀ c, c < 2 ^ w → c ^^^ 2 ^ w = c + 2 ^ w := by
      intro c hc
      rw [Nat.xor_comm, add_comm]
      have := (Nat.two_pow_add_eq_or_of_lt hc 1)
      rw [mul_one] at this
      rw [this]
      apply Nat.eq_of_testBit_eq
      intro i
      rw [Nat.testBit_xor, Nat.testBit_or, Nat.testBit_two_pow]
      by_cases h : w = i
      · subst h; simp [Nat.testBit_lt_two_pow hc]
      · simp [h]
    split_ifs with h1
    · exact hxor b h1
    · have h2 : b - 2 ^ w < 2 ^ w := by rw [pow_succ] at hb; omega
      have h3 := hxor _ h2
      rw [Nat.sub_add_cancel (by omega)] at h3
      rw [← h3, Nat.xor_assoc, Nat.xor_self, Nat.xor_zero, h3]
  unfold neg signBit absPat
  cases T
  all_goals
    simp only [FloatType.W] at *
  · rw [show (32 - 1) = 31 from rfl, key 31 b h]; split_ifs <;> omega
  · rw [show (64 - 1) = 63 from rfl, key 63 b h]; split_ifs <;> omega

theorem neg_neg' {T : FloatType} (b : Nat) : neg T (neg T b) = b := by
  unfold neg; rw [Nat.xor_assoc, Nat.xor_self, Nat.xor_zero]

theorem isFinite_neg {T : FloatType} {b : Nat} (h : IsFinite T b) : IsFinite T (neg T b) := by
  obtain ⟨_, h2, h3⟩ := signBit_neg h.1
  refine ⟨h3, ?_⟩
  rw [expField_eq, h2, ← expField_eq]; exact h.2

theorem value_neg {T : FloatType} {b : Nat} (h : b < 2 ^ T.W) : value T (neg T b) = -value T b := by
  obtain ⟨h1, h2, _⟩ := signBit_neg h
  have : signBit T b < 2 := Nat.mod_lt _ (by norm_num)
  unfold value
  rw [mag_eq, mag_eq, h2, h1]
  have : signBit T b = 0 ∨ signBit T b = 1 := by omega
  rcases this with h | h <;> simp [h]

theorem identifies_neg {T : FloatType} {b : Nat} {x : ℚ} (h : Identifies T x b) :
    Identifies T (-x) (neg T b) := by
  obtain ⟨h1, h2, h3⟩ := h
  refine ⟨isFinite_neg h1, by rwa [abs_neg], ?_⟩
  intro b' hb' hne
  have h4 := h3 (neg T b') (isFinite_neg hb') (by
    rw [value_neg hb'.1]; rw [value_neg h1.1] at hne
    intro he; apply hne; rw [← he]; ring)
  rw [value_neg hb'.1] at h4
  rw [value_neg h1.1]
  rw [show -x - -value T b = -(x - value T b) by ring, abs_neg,
    show -x - value T b' = -(x - -value T b') by ring, abs_neg]
  exact h4

end Floaxie
