import Mathlib.Tactic.Ring
import Mathlib.Tactic.Linarith
import Mathlib.Tactic.NormNum
import Mathlib.Tactic.Positivity
import Mathlib.Tactic.FieldSimp
import Mathlib.Algebra.Order.Field.Power
import Mathlib.Data.Rat.Cast.Order
import Verif.Model.DiyFp
import Verif.Proof.Word

/-! # The power-of-ten tables -/

namespace Floaxie

open FloatType

/-- Integer form of "entry `i` exists, is normalized and within half a unit of
the power of ten". -/
def tabCheck (T : FloatType) (i : Nat) : Bool :=
  match T.powF[i]?, T.powE[i]? with
  | some f, some e =>
    let k : Int := (i : Int) - T.pow0Offset
    let kp := k.toNat
    let kn := (-k).toNat
    let ep := e.toNat
    let en := (-e).toNat
    let A := 2 * f * 2 ^ ep * 10 ^ kn
    let B := 2 * 10 ^ kp * 2 ^ en
    let U := 2 ^ ep * 10 ^ kn
    decide (2 ^ (T.W - 1) ≤ f) && decide (f < 2 ^ T.W) &&
      decide (A ≤ B + U) && decide (B ≤ A + U)
  | _, _ => false

theorem tabCheck_float : (List.range 101).all (tabCheck .float) = true := by decide +kernel
theorem tabCheck_double : (List.range 687).all (tabCheck .double) = true := by decide +kernel

theorem tabCheck_all (T : FloatType) (i : Nat) (h : i < 2 * T.pow0Offset + 1) :
    tabCheck T i = true := by
  cases T
  · exact List.all_eq_true.mp tabCheck_float i (List.mem_range.mpr h)
  · exact List.all_eq_true.mp tabCheck_double i (List.mem_range.mpr h)

theorem zpow_split (b : ℚ) (hb : b ≠ 0) (k : Int) :
    b ^ k * b ^ (-k).toNat = b ^ k.toNat := by
  rw [← zpow_natCast, ← zpow_natCast, ← zpow_add₀ hb]
  congr 1; omega

/-- Every supported power of ten is in the table, normalized, and within half a
unit in the last place. -/
theorem cachedPower_ok (T : FloatType) (k : Int) (h1 : T.powLo ≤ k) (h2 : k ≤ T.powHi) :
    ∃ c : DiyFp, cachedPower T k = .ok c ∧ 2 ^ (T.W - 1) ≤ c.f ∧ c.f < 2 ^ T.W ∧
      |(c.f : ℚ) * 2 ^ c.e - 10 ^ k| ≤ 1 / 2 * 2 ^ c.e := by
  have hoff : T.powLo = -(T.pow0Offset : Int) := by cases T <;> rfl
  have hoff2 : T.powHi = (T.pow0Offset : Int) := by cases T <;> rfl
  rw [hoff] at h1; rw [hoff2] at h2
  have hc := tabCheck_all T ((T.pow0Offset : Int) + k).toNat (by omega)
  have hk : ((((T.pow0Offset : Int) + k).toNat : Nat) : Int) - T.pow0Offset = k := by omega
  unfold tabCheck at hc
  rw [hk] at hc
  unfold cachedPower
  rw [assertM_true (by simpa using h1), ok_bind]
  generalize hi : ((T.pow0Offset : Int) + k).toNat = i at *
  cases hf : T.powF[i]? with
  | none => rw [hf] at hc; simp at hc
  | some f =>
    cases he : T.powE[i]? with
    | none => rw [hf, he] at hc; simp at hc
    | some e =>
      rw [hf, he] at hc
      simp only [Bool.and_eq_true, decide_eq_true_eq] at hc
      obtain ⟨⟨⟨c1, c2⟩, c3⟩, c4⟩ := hc
      refine ⟨⟨f, e⟩, by simp [hf, he, pure, Except.pure], c1, c2, ?_⟩
      have c3' : (2 * f * 2 ^ e.toNat * 10 ^ (-k).toNat : ℚ) ≤
        2 * 10 ^ k.toNat * 2 ^ (-e).toNat + 2 ^ e.toNat * 10 ^ (-k).toNat := by exact_mod_cast c3
      have c4' : (2 * 10 ^ k.toNat * 2 ^ (-e).toNat : ℚ) ≤
        2 * f * 2 ^ e.toNat * 10 ^ (-k).toNat + 2 ^ e.toNat * 10 ^ (-k).toNat := by exact_mod_cast c4
      have z1 := zpow_split 10 (by norm_num) k
      have z2 := zpow_split 2 (by norm_num) e
      rw [← z1, ← z2] at c3' c4'
      have p1 : (0 : ℚ) < 10 ^ (-k).toNat * 2 ^ (-e).toNat := by positivity
      simp only
      rw [abs_le]
      constructor
      · have : (0 : ℚ) ≤ (f * 2 ^ e - 10 ^ k + 1 / 2 * 2 ^ e) *
            (10 ^ (-k).toNat * 2 ^ (-e).toNat) := by linarith
        have := nonneg_of_mul_nonneg_left this p1
        linarith
      · have : (0 : ℚ) ≤ (1 / 2 * 2 ^ e - (f * 2 ^ e - 10 ^ k)) *
            (10 ^ (-k).toNat * 2 ^ (-e).toNat) := by linarith
        have := nonneg_of_mul_nonneg_left this p1
        linarith

end Floaxie
