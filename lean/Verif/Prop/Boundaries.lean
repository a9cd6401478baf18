import Verif.Proof.ShortMain

/-!
# The boundaries of a floating point value (C48)
-/

namespace Floaxie

open FloatType Spec

theorem lower_mid_sub (T : FloatType) (a : Nat) (h0 : a < 2 ^ (T.p - 1)) (ha : a ≠ 0) :
    ((N T (a - 1) : ℚ) + N T a) =
      ((sigN T a : ℚ) * 2 ^ bshift T (sigN T a) - 1) *
        (2 ^ (a / 2 ^ (T.p - 1) - 1) * 2 / 2 ^ bshift T (sigN T a)) := by
  have e1 : ∀ b, b < 2 ^ (T.p - 1) → N T b = b ∧ sigN T b = b := by
    intro b hb
    unfold N sigN
    rw [Nat.div_eq_of_lt hb, Nat.mod_eq_of_lt hb]
    simp
  have hsh : bshift T a = 1 := by
    unfold bshift
    rw [if_neg]
    omega
  rw [(e1 a h0).1, (e1 a h0).2, (e1 (a - 1) (by omega)).1, Nat.div_eq_of_lt h0, hsh,
    Nat.cast_sub (by omega)]
  push_cast
  ring

theorem lower_mid_least (T : FloatType) :
    2 * (N T (2 ^ (T.p - 1)) : ℚ) - 1 / 2 =
      ((sigN T (2 ^ (T.p - 1)) : ℚ) * 2 ^ bshift T (sigN T (2 ^ (T.p - 1))) - 1) *
        (2 ^ (2 ^ (T.p - 1) / 2 ^ (T.p - 1) - 1) * 2 / 2 ^ bshift T (sigN T (2 ^ (T.p - 1)))) ∧
    N T (2 ^ (T.p - 1) - 1) + 1 = N T (2 ^ (T.p - 1)) := by
  have e1 : N T (2 ^ (T.p - 1)) = 2 ^ (T.p - 1) := by cases T <;> decide
  have e2 : sigN T (2 ^ (T.p - 1)) = 2 ^ (T.p - 1) := by cases T <;> decide
  have e3 : N T (2 ^ (T.p - 1) - 1) = 2 ^ (T.p - 1) - 1 := by cases T <;> decide
  have e4 : bshift T (2 ^ (T.p - 1)) = 2 := by cases T <;> decide
  have e5 : 2 ^ (T.p - 1) / 2 ^ (T.p - 1) = 1 := Nat.div_self (by positivity)
  have : 0 < 2 ^ (T.p - 1) := by positivity
  rw [e1, e2, e3, e4, e5]
  refine ⟨?_, by omega⟩
  push_cast
  norm_num
  ring

/-- **C48.** For every finite non-zero value `boundaries` returns the two points
half way to the neighbours, exactly, with the same exponent and the upper one
normalized - except that for the least normal number the lower one is only a
quarter of the way to the lower neighbour. -/
theorem C48_boundaries (T : FloatType) (bits : Nat) (hf : IsFinite T bits)
    (h0 : value T bits ≠ 0) :
    ∃ m p : DiyFp, boundaries T bits = .ok (m, p) ∧ m.e = p.e ∧
      2 ^ (T.W - 1) ≤ p.f ∧ p.f < 2 ^ T.W ∧ m.f < p.f ∧
      (p.f : ℚ) * 2 ^ p.e = midAbove T bits ∧
      (m.f : ℚ) * 2 ^ m.e =
        if bits % 2 ^ (T.W - 1) = 2 ^ (T.p - 1) then (midBelow T bits + mag T bits) / 2
        else midBelow T bits := by
  have ha := absPat_lt_posInf hf
  have ha0 := abs_ne_zero_of_value h0
  obtain ⟨J, E, hEdef, hJ, hf0, hfp, hJn, hpl1, hpl2, hE1, hE2, hbd⟩ :=
    boundaries_ok T bits hf.1 ha ha0
  refine ⟨_, _, hbd, rfl, hpl1, hpl2, ?_, ?_, ?_⟩
  · dsimp only
    have hsh : bshift T (sigN T (absPat T bits)) ≤ J + 1 := by
      have h1 : bshift T (sigN T (absPat T bits)) ≤ 2 := by unfold bshift; split_ifs <;> omega
      have h2 : 1 ≤ T.W - T.p - 1 := by cases T <;> decide
      omega
    have hpos : 0 < sigN T (absPat T bits) * 2 ^ bshift T (sigN T (absPat T bits)) := by positivity
    calc (sigN T (absPat T bits) * 2 ^ bshift T (sigN T (absPat T bits)) - 1) *
          2 ^ (J + 1 - bshift T (sigN T (absPat T bits)))
        < sigN T (absPat T bits) * 2 ^ bshift T (sigN T (absPat T bits)) *
          2 ^ (J + 1 - bshift T (sigN T (absPat T bits))) :=
          Nat.mul_lt_mul_of_pos_right (by omega) (by positivity)
      _ = 2 * sigN T (absPat T bits) * 2 ^ J := by
          rw [mul_assoc, ← pow_add, Nat.add_sub_cancel' hsh]; ring
      _ ≤ _ := Nat.mul_le_mul_right _ (by omega)
  · rw [(mids_eq hf).2, N_succ, N_eq]
    dsimp only
    have hulp : ulpN T (absPat T bits) = 2 ^ (absPat T bits / 2 ^ (T.p - 1) - 1) := rfl
    rw [hulp, hEdef]
    push_cast
    rw [zpow_sub₀ (by norm_num), zpow_sub₀ (by norm_num), zpow_add₀ (by norm_num), zpow_natCast,
      zpow_natCast]
    field_simp
    ring
  · have hsh : bshift T (sigN T (absPat T bits)) ≤ J + 1 := by
      have h1 : bshift T (sigN T (absPat T bits)) ≤ 2 := by unfold bshift; split_ifs <;> omega
      have h2 : 1 ≤ T.W - T.p - 1 := by cases T <;> decide
      omega
    have hpos : 0 < sigN T (absPat T bits) * 2 ^ bshift T (sigN T (absPat T bits)) := by positivity
    have key : ((((sigN T (absPat T bits)) * 2 ^ bshift T (sigN T (absPat T bits)) - 1) *
          2 ^ (J + 1 - bshift T (sigN T (absPat T bits))) : ℕ) : ℚ) * 2 ^ E =
        ((sigN T (absPat T bits) : ℚ) * 2 ^ bshift T (sigN T (absPat T bits)) - 1) *
        (2 ^ (absPat T bits / 2 ^ (T.p - 1) - 1) * 2 / 2 ^ bshift T (sigN T (absPat T bits))) / 2 *
          2 ^ emin T := by
      push_cast [Nat.cast_sub (show 1 ≤ sigN T (absPat T bits) * 2 ^ bshift T (sigN T (absPat T bits)) by omega)]
      rw [hEdef, zpow_sub₀ (by norm_num), zpow_sub₀ (by norm_num), zpow_add₀ (by norm_num),
        zpow_natCast, zpow_natCast, pow_sub₀ _ (by norm_num) hsh]
      field_simp
      ring
    dsimp only
    rw [key, absPat_mod, (mids_eq hf).1]
    rcases lt_trichotomy (absPat T bits) (2 ^ (T.p - 1)) with h | h | h
    · rw [if_neg (by omega), lower_mid_sub T _ h ha0]
    · rw [if_pos h, mag_eq, h, ← (lower_mid_least T).1]
      have : (N T (2 ^ (T.p - 1) - 1) : ℚ) + 1 = N T (2 ^ (T.p - 1)) := by
        exact_mod_cast (lower_mid_least T).2
      have e : (N T (2 ^ (T.p - 1) - 1) : ℚ) = N T (2 ^ (T.p - 1)) - 1 := by linarith
      rw [e]
      ring
    · rw [if_neg (by omega), lower_mid_eq T _ h]

/-- 1.0: a power of two, whose lower neighbour is nearer than the upper one. -/
example : ∃ m p : DiyFp, boundaries .double 0x3ff0000000000000 = .ok (m, p) ∧
    IsFinite .double 0x3ff0000000000000 ∧ m.f = 2 ^ 63 - 2 ^ 9 ∧ p.f = 2 ^ 63 + 2 ^ 10 :=
  ⟨⟨2 ^ 63 - 2 ^ 9, -63⟩, ⟨2 ^ 63 + 2 ^ 10, -63⟩, by decide +kernel, isFinite_of_lt (by decide), rfl, rfl⟩

/-- **C48, the exception.** The least normal `double`: its lower neighbour is one
unit below, the true lower boundary half a unit, the one returned a quarter. -/
theorem C48_refuted : ∃ m p : DiyFp, boundaries .double (2 ^ 52) = .ok (m, p) ∧
    (m.f : ℚ) * 2 ^ m.e ≠ midBelow .double (2 ^ 52) := by
  obtain ⟨m, p, h, -, -, -, -, -, h2⟩ := C48_boundaries .double (2 ^ 52)
    (isFinite_of_lt (by decide)) (by rw [Ne, value_zero_iff]; decide)
  refine ⟨m, p, h, ?_⟩
  rw [h2, if_pos (by decide)]
  intro he
  have e1 : midBelow .double (2 ^ 52) = mag .double (2 ^ 52) :=
    (show ∀ x y : ℚ, (x + y) / 2 = x → x = y by intro x y h; linarith) _ _ he
  rw [(mids_eq (isFinite_of_lt (by decide))).1, mag_eq, show absPat .double (2 ^ 52) = 2 ^ 52 by decide,
    show N .double (2 ^ 52 - 1) = 2 ^ 52 - 1 by decide, show N .double (2 ^ 52) = 2 ^ 52 by decide] at e1
  have := mul_right_cancel₀ (emin_pos .double).ne' e1
  norm_num at this

end Floaxie
