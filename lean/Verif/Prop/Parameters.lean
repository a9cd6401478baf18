import Verif.Proof.GrisuAt
import Verif.Prop.Ftoa

/-!
# Other parameters of the printing algorithm (C80)

`grisu2` has its scaling window as template parameters.  `ftoa` uses one pair; here
is what holds for the others that compile.
-/

namespace Floaxie

open FloatType Spec

theorem accepted_le {T : FloatType} {α γ : Int} (h : grisuAccepted T α γ = true) :
    α ≤ -((T.W / 2 : Nat) : Int) := by
  unfold grisuAccepted at h
  simp only [Bool.and_eq_true, decide_eq_true_eq, Bool.not_eq_true', Bool.and_eq_false_iff,
    decide_eq_false_iff_not] at h
  have hW : 0 < T.W / 2 := by cases T <;> decide
  omega

/-- **C80.** For every pair of template arguments the compiler accepts, with
`alpha` at least 4 above minus the word size and, for `double`, not above the value
`ftoa` uses: on every finite value other than zero `grisu2` terminates without
undefined behaviour or failed assertion, writes at most 17 (`double`) / 9 (`float`)
digits, the first and the last of them not zero, at the place given and nothing
else, returns their number, and the digits with the returned exponent identify the
magnitude of the value. -/
theorem C80_parameters (T : FloatType) (α γ : Int) (hacc : grisuAccepted T α γ = true)
    (h1 : -(T.W : Int) + 4 ≤ α) (h2 : T = .double → α ≤ -35)
    (bits : Nat) (hf : IsFinite T bits) (h0 : value T bits ≠ 0) :
    ∃ (ds : List (Fin 10)) (k : Int),
      ds.length ≤ (match T with | .float => 9 | .double => 17) ∧
      (∃ h : ds ≠ [], ds.head h ≠ 0 ∧ ds.getLast h ≠ 0) ∧
      Identifies T (digitsVal ds * 10 ^ k) (bits % 2 ^ (T.W - 1)) ∧
      ∀ (pre rest : List Nat), ds.length ≤ rest.length →
        grisu2At α T bits (pre ++ rest) pre.length =
          .ok (pre ++ ds.map digitChar ++ rest.drop ds.length, ds.length, k) := by
  have hα := accepted_le hacc
  obtain ⟨ds, k, a1, a2, a3, a4⟩ := grisu2At_ok T α h1
    (by cases T
        · simp only [FloatType.W, sLeast] at *; omega
        · have := h2 rfl
          simp only [sLeast]; omega)
    bits hf.1 (absPat_lt_posInf hf) (fun h => h0 (value_zero_iff.mpr h))
  exact ⟨ds, k, by cases T <;> exact a1, a2, a3, fun pre rest hr => a4 _ pre rest rfl hr⟩

/-- The parameters of `ftoa` are among them, and so are others. -/
theorem C80_own (T : FloatType) : grisuAccepted T T.alpha T.gamma = true ∧
    -(T.W : Int) + 4 ≤ T.alpha ∧ (T = .double → T.alpha ≤ -35) ∧
    ∀ (bits : Nat) (buf : List Nat) (o : Nat), grisu2 T bits buf o = grisu2At T.alpha T bits buf o := by
  refine ⟨by cases T <;> decide, by cases T <;> decide, fun h => by subst h; decide, fun _ _ _ => rfl⟩

theorem not_identifies_of_value {T : FloatType} {x : ℚ} {b c : Nat} (hc : IsFinite T c) (hx : value T c = x)
    (hne : value T c ≠ value T b) : ¬ Identifies T x b := by
  intro h
  have := h.2.2 c hc hne
  rw [hx, sub_self, abs_zero] at this
  exact absurd this (not_lt.mpr (abs_nonneg _))

/-- **C80, the bounds cannot be weakened.**  Arguments just outside are accepted by
the compiler and give wrong digits without any failed assertion: 3.8 is printed as
3.0 with `alpha = -61`, 464 as 34.5032704 with `alpha = -34`; as `float`, 58 is
printed as 50 with `alpha = -29`. -/
theorem C80_outside :
    (grisuAccepted .double (-61) (-58) = true ∧ value .double 0x400E666666666666 = 4278419646001971 / 2 ^ 50 ∧
      grisu2At (-61) .double 0x400E666666666666 (List.replicate 17 0) 0 =
        .ok ("30".toList.map Char.toNat ++ List.replicate 15 0, 2, -1) ∧
      ¬ Identifies .double (30 * 10 ^ (-1 : Int)) 0x400E666666666666) ∧
    (grisuAccepted .double (-34) 32 = true ∧ value .double 0x407D000000000000 = 464 ∧
      grisu2At (-34) .double 0x407D000000000000 (List.replicate 17 0) 0 =
        .ok ("345032704".toList.map Char.toNat ++ List.replicate 8 0, 9, -7) ∧
      ¬ Identifies .double (345032704 * 10 ^ (-7 : Int)) 0x407D000000000000) ∧
    (grisuAccepted .float (-29) (-26) = true ∧ value .float 0x42680000 = 58 ∧
      grisu2At (-29) .float 0x42680000 (List.replicate 9 0) 0 =
        .ok ("50".toList.map Char.toNat ++ List.replicate 7 0, 2, 0) ∧
      ¬ Identifies .float (50 * 10 ^ (0 : Int)) 0x42680000) := by
  refine ⟨⟨by decide, by decide +kernel, by decide +kernel, ?_⟩,
    ⟨by decide, by decide +kernel, by decide +kernel, ?_⟩,
    ⟨by decide, by decide +kernel, by decide +kernel, ?_⟩⟩
  · exact not_identifies_of_value (c := 0x4008000000000000) ⟨by decide, by decide⟩ (by decide +kernel)
      (by decide +kernel)
  · intro h
    have := h.2.2 0x4041400000000000 ⟨by decide, by decide⟩ (by decide +kernel)
    revert this
    decide +kernel
  · exact not_identifies_of_value (c := 0x42480000) ⟨by decide, by decide⟩ (by decide +kernel)
      (by decide +kernel)

/-- **C80, the window.**  For every such pair a cached power is found that brings the
exponent of the upper boundary between `alpha` and `gamma`. -/
theorem C80_window (T : FloatType) (α γ : Int) (hacc : grisuAccepted T α γ = true)
    (h1 : -(T.W : Int) + 4 ≤ α) (h2 : T = .double → α ≤ -35)
    (bits : Nat) (hf : IsFinite T bits) (h0 : value T bits ≠ 0) :
    ∃ m p c : DiyFp, boundaries T bits = .ok (m, p) ∧ cachedPower T (kCompExp α p.e) = .ok c ∧
      α ≤ (p.mul T.W c).e ∧ (p.mul T.W c).e ≤ γ := by
  have hα := accepted_le hacc
  obtain ⟨J, E, -, -, -, -, -, -, -, e1, e2, e3⟩ := boundaries_ok T bits hf.1 (absPat_lt_posInf hf)
    (fun h => h0 (value_zero_iff.mpr h))
  obtain ⟨k1, k2, k3⟩ := kComp_at T α E (by
      clear * - h1 e2; cases T <;> simp only [yLo, bndHi, FloatType.W] at * <;> omega) (by
      cases T
      · clear * - hα e1; simp only [yHi, bndLo, FloatType.W] at *; omega
      · have := h2 rfl
        clear * - this e1; simp only [yHi, bndLo] at *; omega)
  obtain ⟨c, hc0, -⟩ := cachedPower_ok T (kCompExp α E) k1 k2
  obtain ⟨w1, w2⟩ := k3 c hc0
  refine ⟨_, _, c, e3, hc0, ?_, ?_⟩
  · rw [mul_e]; exact w1
  · rw [mul_e]
    refine le_trans w2 ?_
    unfold grisuAccepted at hacc
    simp only [Bool.and_eq_true, decide_eq_true_eq] at hacc
    omega

/-- **C80, the window cannot be narrower** (the second static assertion is needed): a
window of three exponents is rejected, and for the value 0.01171875 and `alpha = -59` the
exponent is not below -56. -/
theorem C80_window_least :
    grisuAccepted .double (-59) (-57) = false ∧ grisuAccepted .double (-59) (-56) = true ∧
    ((do let r ← boundaries .double 0x3f88000000000000
         let c ← cachedPower .double (kCompExp (-59) r.2.e)
         pure (r.2.mul 64 c).e : M Int)) = .ok (-56) := by
  decide +kernel

/-- The hypotheses of C80 are met by a pair `ftoa` does not use and the value -0.1. -/
example : grisuAccepted .double (-59) (-32) = true ∧ -((FloatType.W .double : Nat) : Int) + 4 ≤ -59 ∧
    IsFinite .double 0xBFB999999999999A ∧ value .double 0xBFB999999999999A ≠ 0 :=
  ⟨by decide, by decide, ⟨by decide, by decide⟩, by decide +kernel⟩

end Floaxie
