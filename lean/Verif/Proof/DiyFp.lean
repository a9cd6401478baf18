import Verif.Proof.Word
import Verif.Proof.Ieee

/-! # `diy_fp` constructed from, and converted to, IEEE data -/

namespace Floaxie

open FloatType Spec

theorem hiddenBit_eq (T : FloatType) : T.hiddenBit = 2 ^ (T.p - 1) := one_shl _

theorem bias_eq (T : FloatType) : T.bias = 1 - emin T := by
  cases T <;> simp [FloatType.bias, emin, FloatType.maxExp, FloatType.mbs, FloatType.minExp, FloatType.p]

theorem infBits_eq (T : FloatType) : T.infBits = posInf T := by
  cases T <;> simp [FloatType.infBits, posInf, expMax, FloatType.mbs, FloatType.W, FloatType.p]

/-- Significand of the pattern `a`. -/
def sigN (T : FloatType) (a : Nat) : Nat :=
  if a / 2 ^ (T.p - 1) = 0 then a % 2 ^ (T.p - 1) else 2 ^ (T.p - 1) + a % 2 ^ (T.p - 1)

theorem N_eq (T : FloatType) (a : Nat) : N T a = sigN T a * ulpN T a := rfl

theorem sigN_lt (T : FloatType) (a : Nat) : sigN T a < 2 ^ T.p := by
  have h := Nat.mod_lt a (show 0 < 2 ^ (T.p - 1) by positivity)
  have h2 : 2 ^ T.p = 2 * 2 ^ (T.p - 1) := by
    rw [← pow_succ']; congr 1; cases T <;> simp [FloatType.p]
  unfold sigN; split_ifs <;> omega

/-- The constructor `diy_fp(FloatType)`. -/
theorem ofFloat_eq (T : FloatType) (bits : Nat) (h : bits < 2 ^ T.W) :
    DiyFp.ofFloat T bits =
      { f := sigN T (absPat T bits),
        e := emin T + ((absPat T bits / 2 ^ (T.p - 1) - 1 : Nat) : Int) } := by
  have hme : (bits &&& ((2 ^ T.W - 1 - mask T.W T.mbs) ^^^ msbValue T.W)) >>> T.mbs =
      absPat T bits / 2 ^ (T.p - 1) := by
    rw [← expField_eq]
    unfold expField
    rw [Nat.shiftRight_and_distrib]
    cases T
    · rw [show ((2 ^ float.W - 1 - mask float.W float.mbs) ^^^ msbValue float.W) >>> float.mbs =
        2 ^ 8 - 1 from by decide, Nat.and_two_pow_sub_one_eq_mod, Nat.shiftRight_eq_div_pow]
      rfl
    · rw [show ((2 ^ double.W - 1 - mask double.W double.mbs) ^^^ msbValue double.W) >>> double.mbs =
        2 ^ 11 - 1 from by decide, Nat.and_two_pow_sub_one_eq_mod, Nat.shiftRight_eq_div_pow]
      rfl
  simp only [DiyFp.ofFloat, and_mask h, hme]
  have hmf : bits % 2 ^ T.mbs = absPat T bits % 2 ^ (T.p - 1) := by
    rw [← fracField_eq]; rfl
  rw [hmf, bias_eq, hiddenBit_eq]
  unfold sigN
  have hF := Nat.mod_lt (absPat T bits) (show 0 < 2 ^ (T.p - 1) by positivity)
  generalize absPat T bits % 2 ^ (T.p - 1) = F at *
  generalize absPat T bits / 2 ^ (T.p - 1) = E at *
  have hlt : F + 2 ^ (T.p - 1) < 2 ^ T.W := by
    revert hF; cases T <;> simp only [FloatType.W, FloatType.p] <;> omega
  rw [Nat.mod_eq_of_lt hlt]
  by_cases hE : E = 0
  · subst hE; simp
  · obtain ⟨k, rfl⟩ : ∃ k, E = k + 1 := ⟨E - 1, by omega⟩
    simp
    refine ⟨by omega, by ring⟩

theorem or_add {x y i : Nat} (hy : y < 2 ^ i) : (x * 2 ^ i) ||| y = x * 2 ^ i + y := by
  rw [mul_comm, Nat.two_pow_add_eq_or_of_lt hy]

/-- What `downsample` should return before the carry problem is taken into
account, and what it returns. -/
theorem downsample_ok (T : FloatType) (w : DiyFp) (hf1 : 2 ^ (T.W - 1) ≤ w.f) (hf2 : w.f < 2 ^ T.W)
    (he1 : emin T + 1 ≤ w.e + T.W) (he2 : w.e ≤ T.maxExp - T.W) :
    ∃ s t a0 : Nat, (s : Int) = max (emin T - w.e) ((T.W - T.p : Nat) : Int) ∧
      (t : Int) = w.e + s - emin T ∧ T.W - T.p ≤ s ∧ s < T.W ∧
      a0 < posInf T ∧ N T a0 = w.f / 2 ^ s * 2 ^ t ∧ ulpN T a0 = 2 ^ t ∧
      (T.W - T.p < s → a0 < 2 ^ (T.p - 1)) ∧
      w.downsample T = .ok {
        value := if 2 ^ (s - 1) < w.f % 2 ^ s ∨ (w.f % 2 ^ s = 2 ^ (s - 1) ∧ w.f / 2 ^ s % 2 = 1)
          then (if (a0 + 1) % 2 ^ (T.p - 1) = 0 then a0 + 1 - 2 ^ (T.p - 1) else a0 + 1) else a0
        status := .success
        isAccurate := decide (w.f % 2 ^ s ≠ 2 ^ (s - 1)) } := by
  have hWp : 0 < T.W - T.p := by cases T <;> simp [FloatType.W, FloatType.p]
  have hWW : 2 ^ T.W = 2 * 2 ^ (T.W - 1) := by
    cases T <;> simp [FloatType.W]
  have hf0 : w.f ≠ 0 := by have : 0 < 2 ^ (T.W - 1) := by positivity
                           omega
  have hemin : T.minExp - (T.mbs : Int) - w.e - 1 = emin T - w.e := by
    cases T <;> simp [emin, FloatType.minExp, FloatType.mbs, FloatType.p] <;> ring
  -- the shift
  obtain ⟨s, hs⟩ : ∃ s : Nat, (s : Int) = max (emin T - w.e) ((T.W - T.p : Nat) : Int) :=
    ⟨(max (emin T - w.e) ((T.W - T.p : Nat) : Int)).toNat, by omega⟩
  have hsW : s < T.W := by
    cases T <;> simp only [FloatType.W, FloatType.p] at * <;> omega
  have hs1 : T.W - T.p ≤ s := by omega
  obtain ⟨t, ht⟩ : ∃ t : Nat, (t : Int) = w.e + s - emin T := ⟨(w.e + s - emin T).toNat, by omega⟩
  -- the quotient
  have hq2 : w.f / 2 ^ s < 2 ^ (T.W - s) := by
    rw [Nat.div_lt_iff_lt_mul (by positivity), ← pow_add, Nat.sub_add_cancel hsW.le]; exact hf2
  have hq1 : 2 ^ (T.W - 1 - s) ≤ w.f / 2 ^ s := by
    rw [Nat.le_div_iff_mul_le (by positivity), ← pow_add, Nat.sub_add_cancel (by omega)]; exact hf1
  have hp1 : T.W - (T.W - T.p) = T.p := by cases T <;> simp [FloatType.W, FloatType.p]
  have hp2 : T.W - 1 - (T.W - T.p) = T.p - 1 := by cases T <;> simp [FloatType.W, FloatType.p]
  have hpp : 2 ^ T.p = 2 * 2 ^ (T.p - 1) := by cases T <;> simp [FloatType.p]
  -- biased exponent
  let E : Nat := if T.W - T.p < s then 0 else t + 1
  have hE : w.e + (s : Int) + T.bias - (if T.W - T.p < s then 1 else 0) = (E : Int) := by
    simp only [E]; rw [bias_eq]; split_ifs with h
    · push_cast; omega
    · push_cast; omega
  have hEmax : E < expMax T := by
    have h1 : (if T.W - T.p < s then 0 else t + 1) ≤ t + 1 := by split_ifs <;> omega
    refine lt_of_le_of_lt h1 ?_
    by_cases h : T.W - T.p < s
    · have : t = 0 := by omega
      rw [this]; clear * -
      cases T <;> simp [expMax, FloatType.W, FloatType.p]
    · have hss : s = T.W - T.p := by omega
      clear hs h1 hq1 hq2 E hE
      subst hss
      cases T <;> simp only [expMax, FloatType.W, FloatType.p, emin, FloatType.minExp,
        FloatType.maxExp] at * <;> omega
  have ht0 : T.W - T.p < s → t = 0 := by intro h; omega
  have hqlt : T.W - T.p < s → w.f / 2 ^ s < 2 ^ (T.p - 1) := by
    intro h
    exact lt_of_lt_of_le hq2 (Nat.pow_le_pow_right (by norm_num) (by
      revert h; cases T <;> simp only [FloatType.W, FloatType.p] <;> omega))
  have hqge : ¬ (T.W - T.p < s) → 2 ^ (T.p - 1) ≤ w.f / 2 ^ s ∧ w.f / 2 ^ s < 2 ^ T.p := by
    intro h
    have : s = T.W - T.p := by omega
    rw [this] at hq1 hq2 ⊢
    rw [hp1] at hq2; rw [hp2] at hq1
    exact ⟨hq1, hq2⟩
  generalize hq : w.f / 2 ^ s = q at *
  let a0 : Nat := E * 2 ^ (T.p - 1) + q % 2 ^ (T.p - 1)
  have hP0 : 0 < 2 ^ (T.p - 1) := by positivity
  have ha0d : a0 / 2 ^ (T.p - 1) = E := by
    simp only [a0]
    rw [mul_comm, Nat.mul_add_div hP0, Nat.div_eq_of_lt (Nat.mod_lt _ hP0), add_zero]
  have ha0m : a0 % 2 ^ (T.p - 1) = q % 2 ^ (T.p - 1) := by
    simp only [a0]
    rw [mul_comm, Nat.mul_add_mod, Nat.mod_mod]
  have hulp : ulpN T a0 = 2 ^ t := by
    unfold ulpN; rw [ha0d]; congr 1
    simp only [E]; split_ifs with h
    · rw [ht0 h]
    · omega
  refine ⟨s, t, a0, hs, ht, hs1, hsW, ?_, ?_, hulp, ?_, ?_⟩
  · -- finite
    simp only [a0, posInf]
    have := Nat.mod_lt q hP0
    calc E * 2 ^ (T.p - 1) + q % 2 ^ (T.p - 1) < E * 2 ^ (T.p - 1) + 2 ^ (T.p - 1) := by omega
      _ = (E + 1) * 2 ^ (T.p - 1) := by ring
      _ ≤ _ := Nat.mul_le_mul_right _ hEmax
  · -- magnitude
    rw [N_eq, hulp, hq]
    congr 1
    unfold sigN
    rw [ha0d, ha0m]
    simp only [E]
    by_cases h : T.W - T.p < s
    · simp only [h, if_true]; exact Nat.mod_eq_of_lt (hqlt h)
    · obtain ⟨h1, h2⟩ := hqge h
      simp only [h, if_false]
      rw [if_neg (by omega)]
      rw [Nat.mod_eq_sub_mod h1, Nat.mod_eq_of_lt (by omega)]; omega
  · intro h
    simp only [a0, E, h, if_true, zero_mul, zero_add]
    exact Nat.mod_lt _ hP0
  · -- the code
    unfold DiyFp.downsample
    rw [assertM_true (by simpa using hf0), ok_bind]
    have hn : w.isNormalized T.W = .ok true := by
      unfold DiyFp.isNormalized
      rw [assertM_true (by simpa using hf0), ok_bind]
      unfold msbValue
      simp only [pure, Except.pure, Except.ok.injEq]
      have := highestBit_eq (show 0 < T.W by omega) hf2
      unfold highestBit nthBit at this
      rw [this]; simpa using hf1
    rw [hn, ok_bind, assertM_true rfl, ok_bind]
    have hno : ¬ (w.e ≥ T.maxExp) := by
      have : 0 < T.W := by omega
      omega
    have hnu : ¬ (w.e + T.W < T.minExp - T.mbs) := by omega
    simp only [hno, hnu, if_false]
    have hdn : positivePart (T.minExp - (T.mbs : Int) - w.e - 1) = (emin T - w.e).toNat := by
      rw [hemin]; unfold positivePart; omega
    rw [hdn, assertM_true (by simp; omega), ok_bind]
    have hsh : max (emin T - w.e).toNat (T.W - T.p) = s := by omega
    rw [hsh]
    rw [roundUp_eq (by omega) hsW.le hf2, ok_bind]
    have hden : ((emin T - w.e).toNat > T.W - T.p) = (T.W - T.p < s) := by
      apply propext; omega
    simp only [hden]
    have hcast : (if T.W - T.p < s then (1:Int) else 0) = if T.W - T.p < s then 1 else 0 := rfl
    rw [hE]
    have hElt : E < 2 ^ (T.W - T.p) := by
      unfold expMax at hEmax; omega
    have hElt2 : E * 2 ^ T.mbs < 2 ^ T.W := by
      have : 2 ^ T.W = 2 * (2 ^ (T.W - T.p) * 2 ^ T.mbs) := by
        rw [← pow_add, ← pow_succ']; congr 1; cases T <;> simp [FloatType.W, FloatType.p, FloatType.mbs]
      rw [this]
      have := Nat.mul_lt_mul_of_pos_right hElt (show 0 < 2 ^ T.mbs by positivity)
      omega
    have hEmod : ((E : Int) % 2 ^ T.W).toNat = E := by
      have h1 : E < 2 ^ T.W := lt_of_lt_of_le hElt (Nat.pow_le_pow_right (by norm_num) (by omega))
      rw [Int.emod_eq_of_lt (by omega) (by exact_mod_cast h1)]; rfl
    rw [hEmod, Nat.shiftLeft_eq, Nat.mod_eq_of_lt hElt2]
    simp only [pure, Except.pure, Except.ok.injEq, DownsampleResult.mk.injEq, and_true,
      decide_eq_true_eq]
    have hcond : (∀ b : Bool, ((if b = true then 1 else 0 : Nat)) ≤ 1) := by intro b; cases b <;> simp
    rw [Nat.shiftRight_eq_div_pow, hq]
    have hqW : q + 1 < 2 ^ T.W := by
      have h1 : q < 2 ^ T.p := by
        by_cases h : T.W - T.p < s
        · have := hqlt h; omega
        · exact (hqge h).2
      have h2 : 2 ^ (T.p + 1) ≤ 2 ^ T.W :=
        Nat.pow_le_pow_right (by norm_num) (by omega)
      rw [pow_succ] at h2
      have : 0 < 2 ^ T.p := by positivity
      omega
    have hmb : T.mbs = T.p - 1 := rfl
    rw [hmb]
    split_ifs with hup hc
    · -- carry
      rw [Nat.mod_eq_of_lt hqW, and_mask hqW, or_add (Nat.mod_lt _ hP0)]
      have h1 : (q + 1) % 2 ^ (T.p - 1) = 0 := by
        rw [Nat.add_mod, ← ha0m, ← Nat.add_mod]; exact hc
      rw [h1]
      have h2 : a0 % 2 ^ (T.p - 1) + 1 = 2 ^ (T.p - 1) := by
        have h3 := Nat.mod_lt a0 hP0
        by_contra hne
        have h4 : a0 % 2 ^ (T.p - 1) + 1 < 2 ^ (T.p - 1) := by omega
        rw [← Nat.mod_add_mod, Nat.mod_eq_of_lt h4] at hc
        omega
      rw [ha0m] at h2
      simp only [a0]
      omega
    · rw [Nat.mod_eq_of_lt hqW, and_mask hqW, or_add (Nat.mod_lt _ hP0)]
      have h3 := Nat.mod_lt a0 hP0
      have h2 : a0 % 2 ^ (T.p - 1) + 1 < 2 ^ (T.p - 1) := by
        by_contra hne
        have h4 : a0 % 2 ^ (T.p - 1) + 1 = 2 ^ (T.p - 1) := by omega
        rw [← Nat.mod_add_mod, h4, Nat.mod_self] at hc
        omega
      have h1 : (q + 1) % 2 ^ (T.p - 1) = q % 2 ^ (T.p - 1) + 1 := by
        rw [← Nat.mod_add_mod, ← ha0m, Nat.mod_eq_of_lt h2]
      rw [h1]
      simp only [a0]; ring
    · rw [add_zero, Nat.mod_eq_of_lt (by omega), and_mask (by omega), or_add (Nat.mod_lt _ hP0)]

end Floaxie
