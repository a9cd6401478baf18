import Mathlib.Data.Nat.Log
import Verif.Proof.Boundaries
import Verif.Proof.DigitGen

/-! # Correctness of Grisu -/

namespace Floaxie

open FloatType Spec

/-- Error of a scaled product: less than one unit. -/
theorem mul_err (T : FloatType) (x c : DiyFp) (k : Int) (hx : x.f < 2 ^ T.W) (hc : c.f < 2 ^ T.W)
    (hcp : |(c.f : ℚ) * 2 ^ c.e - 10 ^ k| ≤ 1 / 2 * 2 ^ c.e) :
    |((x.mul T.W c).f : ℚ) * 2 ^ (x.mul T.W c).e - x.f * 2 ^ x.e * 10 ^ k| <
      2 ^ (x.mul T.W c).e := by
  rw [mul_f T x c hx hc, mul_e]
  have hu : (0 : ℚ) < 2 ^ c.e := by positivity
  obtain ⟨r, hr⟩ : ∃ r : ℚ, (10 : ℚ) ^ k = r * 2 ^ c.e := ⟨10 ^ k / 2 ^ c.e, by field_simp⟩
  rw [hr, ← sub_mul, abs_mul, abs_of_pos hu] at hcp
  have hcr : |(c.f : ℚ) - r| ≤ 1 / 2 := le_of_mul_le_mul_right hcp hu
  have hWpos : (0 : ℚ) < 2 ^ T.W := by positivity
  have hexp : (2 : ℚ) ^ (x.e + c.e + (T.W : Int)) = 2 ^ x.e * 2 ^ c.e * 2 ^ T.W := by
    rw [zpow_add₀ (by norm_num), zpow_add₀ (by norm_num), zpow_natCast]
  rw [hexp, hr]
  set q := (x.f * c.f + 2 ^ (T.W - 1)) / 2 ^ T.W with hq
  have hW1 : 2 ^ T.W = 2 * 2 ^ (T.W - 1) := by cases T <;> simp [FloatType.W]
  have hW1q : (2 : ℚ) ^ T.W = 2 * 2 ^ (T.W - 1) := by exact_mod_cast hW1
  have hdm := Nat.div_add_mod (x.f * c.f + 2 ^ (T.W - 1)) (2 ^ T.W)
  have hml := Nat.mod_lt (x.f * c.f + 2 ^ (T.W - 1)) (show 0 < 2 ^ T.W by positivity)
  rw [← hq] at hdm
  have hq1 : (2 : ℚ) ^ T.W * q ≤ x.f * c.f + 2 ^ (T.W - 1) := by
    exact_mod_cast (by omega : 2 ^ T.W * q ≤ x.f * c.f + 2 ^ (T.W - 1))
  have hq2 : (x.f * c.f + 2 ^ (T.W - 1) : ℚ) < 2 ^ T.W * q + 2 ^ T.W := by
    exact_mod_cast (by omega : x.f * c.f + 2 ^ (T.W - 1) < 2 ^ T.W * q + 2 ^ T.W)
  have hxq : (x.f : ℚ) < 2 ^ T.W := by exact_mod_cast hx
  have hx0 : (0 : ℚ) ≤ x.f := by positivity
  have e : (q : ℚ) * (2 ^ x.e * 2 ^ c.e * 2 ^ T.W) - x.f * 2 ^ x.e * (r * 2 ^ c.e) =
      (q * 2 ^ T.W - x.f * r) * (2 ^ x.e * 2 ^ c.e) := by ring
  have hpp : (0 : ℚ) < 2 ^ x.e * 2 ^ c.e := by positivity
  rw [e, abs_mul, abs_of_pos hpp, mul_comm ((2 : ℚ) ^ x.e * 2 ^ c.e) (2 ^ T.W)]
  apply mul_lt_mul_of_pos_right _ hpp
  rw [abs_le] at hcr
  have h3 : (x.f : ℚ) * (c.f - r) ≤ x.f * (1 / 2) := mul_le_mul_of_nonneg_left hcr.2 hx0
  have h4 : (x.f : ℚ) * (-(1 / 2)) ≤ x.f * (c.f - r) := mul_le_mul_of_nonneg_left hcr.1 hx0
  rw [abs_lt]
  constructor <;> linarith

/-- The lower boundary used by the code is not below the true midpoint. -/
theorem lower_mid (T : FloatType) (a : Nat) (h0 : a ≠ 0) :
    ((N T (a - 1) : ℚ) + N T a) ≤
      ((sigN T a : ℚ) * 2 ^ bshift T (sigN T a) - 1) *
        (2 ^ (a / 2 ^ (T.p - 1) - 1) * 2 / 2 ^ bshift T (sigN T a)) := by
  have hN : N T a = N T (a - 1) + ulpN T (a - 1) := by
    have := N_succ T (a - 1); rwa [Nat.sub_add_cancel (by omega)] at this
  have hNa : N T a = sigN T a * 2 ^ (a / 2 ^ (T.p - 1) - 1) := rfl
  have hN' : (N T (a - 1) : ℚ) = N T a - ulpN T (a - 1) := by rw [hN]; push_cast; ring
  rw [hN', hNa]
  have hP0 : 0 < 2 ^ (T.p - 1) := by positivity
  unfold bshift
  by_cases hf : sigN T a = 2 ^ (T.p - 1)
  · rw [if_pos hf]
    have hE : a / 2 ^ (T.p - 1) ≠ 0 := by
      intro h; unfold sigN at hf; rw [if_pos h] at hf
      have := Nat.mod_lt a hP0; omega
    have hu : 2 ^ (a / 2 ^ (T.p - 1) - 1) ≤ 2 * ulpN T (a - 1) := by
      unfold ulpN
      rw [← pow_succ']
      apply Nat.pow_le_pow_right (by norm_num)
      have : a / 2 ^ (T.p - 1) - 1 ≤ (a - 1) / 2 ^ (T.p - 1) := by
        rw [Nat.le_div_iff_mul_le hP0, Nat.sub_mul, one_mul]
        have := Nat.div_mul_le_self a (2 ^ (T.p - 1))
        omega
      omega
    have hu' : (2 : ℚ) ^ (a / 2 ^ (T.p - 1) - 1) ≤ 2 * ulpN T (a - 1) := by exact_mod_cast hu
    rw [hf]
    push_cast
    linarith
  · rw [if_neg hf]
    have hu : 2 ^ (a / 2 ^ (T.p - 1) - 1) ≤ ulpN T (a - 1) := by
      unfold ulpN
      apply Nat.pow_le_pow_right (by norm_num)
      by_cases hE : a / 2 ^ (T.p - 1) = 0
      · omega
      · have hm : a % 2 ^ (T.p - 1) ≠ 0 := by
          intro h; apply hf; unfold sigN; rw [if_neg hE, h, add_zero]
        have : a / 2 ^ (T.p - 1) ≤ (a - 1) / 2 ^ (T.p - 1) := by
          rw [Nat.le_div_iff_mul_le hP0]
          have := Nat.div_add_mod' a (2 ^ (T.p - 1))
          omega
        omega
    have hu' : (2 : ℚ) ^ (a / 2 ^ (T.p - 1) - 1) ≤ ulpN T (a - 1) := by exact_mod_cast hu
    push_cast
    linarith

/-- Largest number of significant digits printed. -/
def maxSig : FloatType → Nat
  | float => 9
  | double => 17

/-- Grisu2 on a finite non-zero value; with the place of the decimal between the
scaled boundaries. -/
theorem grisu2_full (T : FloatType) (bits : Nat) (hb : bits < 2 ^ T.W)
    (hfin : absPat T bits < posInf T) (h0 : absPat T bits ≠ 0) :
    ∃ (ds : List (Fin 10)) (k : Int), ds.length ≤ maxSig T ∧
      (∃ h : ds ≠ [], ds.head h ≠ 0 ∧ ds.getLast h ≠ 0) ∧
      Identifies T (digitsVal ds * 10 ^ k) (absPat T bits) ∧
      T.powLo ≤ k ∧ k ≤ T.powHi ∧
      (∃ (mi pl c : DiyFp) (mk : Int), boundaries T bits = .ok (mi, pl) ∧ mi.e = pl.e ∧
        mi.f < pl.f ∧ pl.f < 2 ^ T.W ∧ mk = kCompExp T.alpha pl.e ∧ cachedPower T mk = .ok c ∧
        (((mi.mul T.W c).f : ℚ) + 1) * 2 ^ (mi.mul T.W c).e ≤ digitsVal ds * 10 ^ k * 10 ^ mk ∧
        (digitsVal ds * 10 ^ k * 10 ^ mk : ℚ) ≤ ((pl.mul T.W c).f - 1) * 2 ^ (pl.mul T.W c).e ∧
        ((pl.mul T.W c).f - 1 : ℚ) * 2 ^ (pl.mul T.W c).e < (digitsVal ds + 1) * 10 ^ k * 10 ^ mk) ∧
      ∀ (o : Nat) (pre rest : List Nat), pre.length = o → ds.length ≤ rest.length →
        grisu2 T bits (pre ++ rest) o =
          .ok (pre ++ ds.map digitChar ++ rest.drop ds.length, ds.length, k) := by
  obtain ⟨J, E, hEdef, hJ, hf0, hfp, hJn, hpl1, hpl2, hE1, hE2, hbd⟩ :=
    boundaries_ok T bits hb hfin h0
  have hlow := lower_mid T (absPat T bits) h0
  have hNs := N_succ T (absPat T bits)
  have hNa : N T (absPat T bits) = sigN T (absPat T bits) * ulpN T (absPat T bits) := N_eq _ _
  have hulp : ulpN T (absPat T bits) = 2 ^ (absPat T bits / 2 ^ (T.p - 1) - 1) := rfl
  generalize sigN T (absPat T bits) = f at *
  generalize ha : absPat T bits = a at *
  generalize a / 2 ^ (T.p - 1) - 1 = st at *
  set sh := bshift T f with hshdef
  have hshle : sh ≤ 2 := by rw [hshdef]; unfold bshift; split_ifs <;> omega
  have hshge : 1 ≤ sh := by rw [hshdef]; unfold bshift; split_ifs <;> omega
  obtain ⟨hmk1, hmk2, hmk3, hwin⟩ := kComp_ok T E hE1 hE2
  obtain ⟨c, hc0, hc1, hc2, hc3⟩ := cachedPower_ok T (kCompExp T.alpha E)
    (by revert hmk1; cases T <;> simp only [mkLo, FloatType.powLo] <;> omega)
    (by revert hmk2; cases T <;> simp only [mkHi, FloatType.powHi] <;> omega)
  obtain ⟨hw1, hw2⟩ := hwin c hc0
  generalize hmk : kCompExp T.alpha E = mk at *
  set pl : DiyFp := ⟨(2 * f + 1) * 2 ^ J, E⟩ with hpl
  set mi : DiyFp := ⟨(f * 2 ^ sh - 1) * 2 ^ (J + 1 - sh), E⟩ with hmi
  -- the width of the interval
  have hJ7 : 7 ≤ J := by revert hJ; cases T <;> simp only [FloatType.p, FloatType.W] <;> omega
  have hfs : 0 < f * 2 ^ sh := by positivity
  have hmi2 : mi.f + 2 ^ (J + 1 - sh) = 2 * f * 2 ^ J := by
    show (f * 2 ^ sh - 1) * 2 ^ (J + 1 - sh) + 2 ^ (J + 1 - sh) = _
    calc (f * 2 ^ sh - 1) * 2 ^ (J + 1 - sh) + 2 ^ (J + 1 - sh)
        = (f * 2 ^ sh - 1 + 1) * 2 ^ (J + 1 - sh) := by ring
      _ = f * (2 ^ sh * 2 ^ (J + 1 - sh)) := by rw [Nat.sub_add_cancel hfs]; ring
      _ = f * 2 ^ (J + 1) := by rw [← pow_add, show sh + (J + 1 - sh) = J + 1 by omega]
      _ = _ := by ring
  have hplmi : mi.f + (2 ^ J + 2 ^ (J + 1 - sh)) = pl.f := by
    show _ = (2 * f + 1) * 2 ^ J
    rw [add_comm (2 ^ J), ← add_assoc, hmi2]; ring
  have hmlt : mi.f < 2 ^ T.W := lt_of_le_of_lt (Nat.le.intro hplmi) hpl2
  have hplt : pl.f < 2 ^ T.W := hpl2
  have hp1 := mul_f T pl c hplt hc2
  have hm1 := mul_f T mi c hmlt hc2
  have herrp := mul_err T pl c mk hplt hc2 hc3
  have herrm := mul_err T mi c mk hmlt hc2 hc3
  have hep : (pl.mul T.W c).e = E + c.e + T.W := rfl
  have hem : (mi.mul T.W c).e = E + c.e + T.W := rfl
  obtain ⟨s, hs⟩ : ∃ s : Nat, E + c.e + T.W = -(s : Int) := by
    refine ⟨(-(E + c.e + T.W)).toNat, ?_⟩
    have : T.gamma ≤ 0 := by unfold FloatType.gamma; omega
    omega
  rw [hep, hs] at herrp
  rw [hem, hs] at herrm
  have hsr : T.W / 2 ≤ s ∧ s ≤ T.W / 2 + 3 := by
    unfold FloatType.alpha at hw1; unfold FloatType.gamma at hw2
    omega
  have hW1 : 2 ^ T.W = 2 * 2 ^ (T.W - 1) := by cases T <;> simp [FloatType.W]
  have hW2 : 2 ^ (T.W - 1) = 2 * 2 ^ (T.W - 2) := by cases T <;> simp [FloatType.W]
  have hWpos : 0 < 2 ^ T.W := by positivity
  -- bounds on the products
  have hdmp := Nat.div_add_mod (pl.f * c.f + 2 ^ (T.W - 1)) (2 ^ T.W)
  have hmlp := Nat.mod_lt (pl.f * c.f + 2 ^ (T.W - 1)) hWpos
  have hdmm := Nat.div_add_mod (mi.f * c.f + 2 ^ (T.W - 1)) (2 ^ T.W)
  have hmlm := Nat.mod_lt (mi.f * c.f + 2 ^ (T.W - 1)) hWpos
  rw [← hp1] at hdmp
  rw [← hm1] at hdmm
  have hPge : 2 ^ (T.W - 2) ≤ (pl.mul T.W c).f := by
    have h1 : 2 ^ (T.W - 1) * 2 ^ (T.W - 1) ≤ pl.f * c.f := Nat.mul_le_mul hpl1 hc1
    rw [hp1, Nat.le_div_iff_mul_le hWpos]
    have : 2 ^ (T.W - 2) * 2 ^ T.W = 2 ^ (T.W - 1) * 2 ^ (T.W - 1) := by
      rw [hW1, hW2]; ring
    omega
  have hPlt : (pl.mul T.W c).f < 2 ^ T.W - 1 := by
    rw [hp1, Nat.div_lt_iff_lt_mul hWpos]
    have h1 : pl.f * c.f ≤ (2 ^ T.W - 1) * (2 ^ T.W - 1) := Nat.mul_le_mul (by omega) (by omega)
    have h2 : (2 ^ T.W - 1) * (2 ^ T.W - 1) + (2 ^ T.W - 1) = (2 ^ T.W - 1) * 2 ^ T.W := by
      conv_rhs => rw [show 2 ^ T.W = (2 ^ T.W - 1) + 1 by omega]
      rw [mul_add, mul_one]; rfl
    have h3 : 1 ≤ 2 ^ (T.W - 2) := Nat.one_le_two_pow
    omega
  have hprod : pl.f * c.f = mi.f * c.f + (2 ^ J + 2 ^ (J + 1 - sh)) * c.f := by
    rw [← hplmi]; ring
  have hMle : (mi.mul T.W c).f ≤ (pl.mul T.W c).f := by
    rw [hm1, hp1]; apply Nat.div_le_div_right
    rw [hprod]; omega
  have hgap : (2 ^ J + 2 ^ (J + 1 - sh)) * c.f <
      ((pl.mul T.W c).f - (mi.mul T.W c).f + 1) * 2 ^ T.W := by
    rw [Nat.add_mul ((pl.mul T.W c).f - (mi.mul T.W c).f), Nat.sub_mul, one_mul]
    have : (mi.mul T.W c).f * 2 ^ T.W ≤ (pl.mul T.W c).f * 2 ^ T.W := Nat.mul_le_mul_right _ hMle
    rw [mul_comm] at hdmp hdmm
    omega
  have hPrel : (pl.mul T.W c).f * 2 ^ T.W ≤ pl.f * c.f + 2 ^ (T.W - 1) := by
    rw [mul_comm]; omega
  -- the interval after ++ and --
  set P := (pl.mul T.W c).f with hP
  set Q := (mi.mul T.W c).f with hQ
  have hgapJ : ∀ n : Nat, 2 ^ n ≤ 2 ^ J + 2 ^ (J + 1 - sh) → n ≥ 1 → 2 ^ (n - 1) < P - Q + 1 := by
    intro n hn hn1
    have h1 : 2 ^ n * 2 ^ (T.W - 1) ≤ (2 ^ J + 2 ^ (J + 1 - sh)) * c.f := Nat.mul_le_mul hn hc1
    have h2 : 2 ^ n * 2 ^ (T.W - 1) = 2 ^ (n - 1) * 2 ^ T.W := by
      rw [hW1]
      obtain ⟨n', rfl⟩ : ∃ n', n = n' + 1 := ⟨n - 1, by omega⟩
      rw [pow_succ]; simp; ring
    rw [h2] at h1
    exact Nat.lt_of_mul_lt_mul_right (lt_of_le_of_lt h1 hgap)
  have hgap3 : 3 * 2 ^ (J - 2) < P - Q + 1 := by
    have hn : 3 * 2 ^ (J - 1) ≤ 2 ^ J + 2 ^ (J + 1 - sh) := by
      have h1 : 2 ^ J = 2 * 2 ^ (J - 1) := by rw [← pow_succ']; congr 1; omega
      have h2 : 2 ^ (J - 1) ≤ 2 ^ (J + 1 - sh) := Nat.pow_le_pow_right (by norm_num) (by omega)
      omega
    have h1 : 3 * 2 ^ (J - 1) * 2 ^ (T.W - 1) ≤ (2 ^ J + 2 ^ (J + 1 - sh)) * c.f :=
      Nat.mul_le_mul hn hc1
    have h2 : 3 * 2 ^ (J - 1) * 2 ^ (T.W - 1) = 3 * 2 ^ (J - 2) * 2 ^ T.W := by
      rw [hW1, show J - 1 = (J - 2) + 1 by omega, pow_succ]; ring
    rw [h2] at h1
    exact Nat.lt_of_mul_lt_mul_right (lt_of_le_of_lt h1 hgap)
  have hMp : (pl.mul T.W c).dec T.W = ⟨P - 1, -(s : Int)⟩ := by
    unfold DiyFp.dec
    have : 1 < P := by
      have : 2 ^ 1 ≤ 2 ^ (T.W - 2) := Nat.pow_le_pow_right (by norm_num)
        (by cases T <;> simp [FloatType.W])
      omega
    rw [if_pos this]; simp only [hep, hs, hP]
  have hMm : (mi.mul T.W c).inc T.W = ⟨Q + 1, -(s : Int)⟩ := by
    unfold DiyFp.inc
    rw [if_pos (by omega), Nat.mod_eq_of_lt (by omega)]; simp only [hem, hs, hQ]
  have hJ96 : 96 ≤ 3 * 2 ^ (J - 2) := by
    have : 2 ^ 5 ≤ 2 ^ (J - 2) := Nat.pow_le_pow_right (by norm_num) (by omega)
    omega
  -- number of integral digits
  have h2s : 0 < 2 ^ s := by positivity
  have hPs : 2 ^ s ≤ P - 1 := by
    have h1 : 2 ^ s + 1 ≤ 2 ^ (T.W - 2) := by
      have : 2 ^ s ≤ 2 ^ (T.W / 2 + 3) := Nat.pow_le_pow_right (by norm_num) hsr.2
      have : 2 ^ (T.W / 2 + 3) + 1 ≤ 2 ^ (T.W - 2) := by cases T <;> simp [FloatType.W]
      omega
    omega
  set κ := Nat.log 10 ((P - 1) / 2 ^ s) with hκ
  have hp1ne : (P - 1) / 2 ^ s ≠ 0 := by
    have : 1 ≤ (P - 1) / 2 ^ s := by rw [Nat.le_div_iff_mul_le h2s, one_mul]; exact hPs
    omega
  have hκ1 : 10 ^ κ * 2 ^ s ≤ P - 1 := by
    have := Nat.pow_log_le_self 10 hp1ne
    rwa [Nat.le_div_iff_mul_le h2s] at this
  have hκ2 : P - 1 < 10 ^ (κ + 1) * 2 ^ s := by
    have := Nat.lt_pow_succ_log_self (by norm_num : 1 < 10) ((P - 1) / 2 ^ s)
    rwa [Nat.div_lt_iff_lt_mul h2s] at this
  have hκb : κ < 10 ∧ (T = .float → κ ≤ 4) := by
    have h1 : 10 ^ κ * 2 ^ s < 2 ^ T.W := by omega
    have h2 : 10 ^ κ * 2 ^ (T.W / 2) < 2 ^ T.W :=
      lt_of_le_of_lt (Nat.mul_le_mul_left _ (Nat.pow_le_pow_right (by norm_num) hsr.1)) h1
    clear * - h2
    cases T
    · have hk : κ ≤ 4 := by
        by_contra hne
        have : 10 ^ 5 ≤ 10 ^ κ := Nat.pow_le_pow_right (by norm_num) (by omega)
        simp only [FloatType.W] at h2; norm_num at h2 this; omega
      exact ⟨by omega, fun _ => hk⟩
    · refine ⟨?_, by simp⟩
      by_contra hne
      have : 10 ^ 10 ≤ 10 ^ κ := Nat.pow_le_pow_right (by norm_num) (by omega)
      simp only [FloatType.W] at h2; norm_num at h2 this; omega
  -- number of fractional digits
  have hm : ∃ m : Nat, m ≤ mB T E ∧ κ + 1 + m ≤ maxSig T ∧ 2 ^ s ≤ (P - 1 - (Q + 1)) * 10 ^ m := by
    have hdel : P - 1 - (Q + 1) + 3 = P - Q + 1 := by omega
    generalize hD : P - 1 - (Q + 1) = D at *
    cases T
    · -- float
      have hκ4 := hκb.2 rfl
      have hs19 : 2 ^ s ≤ 2 ^ 19 := Nat.pow_le_pow_right (by norm_num) hsr.2
      refine ⟨mB .float E, le_refl _, ?_, ?_⟩
      · have : mB .float E ≤ 4 := by simp only [mB]; split_ifs <;> omega
        simp only [maxSig]; omega
      · have hsub : 8 ≤ J → sh = 1 := by
          intro h8
          rw [hshdef]; unfold bshift
          rw [if_neg]
          intro hf
          have := hJn (by omega)
          simp only [FloatType.p, FloatType.W] at this; omega
        have hJE : (J : Int) ≥ -150 - E := by
          rw [hEdef]; simp only [emin, FloatType.minExp, FloatType.p]; omega
        simp only [mB]
        split_ifs with h1 h2
        · omega
        · have hJ11 : 11 ≤ J := by omega
          have := hgapJ 12 (by
            rw [hsub (by omega)]
            have : 2 ^ 11 ≤ 2 ^ J := Nat.pow_le_pow_right (by norm_num) hJ11
            simp only [Nat.add_sub_cancel]; omega) (by norm_num)
          omega
        · have hJ20 : 20 ≤ J := by omega
          have := hgapJ 21 (by
            rw [hsub (by omega)]
            have : 2 ^ 20 ≤ 2 ^ J := Nat.pow_le_pow_right (by norm_num) hJ20
            simp only [Nat.add_sub_cancel]; omega) (by norm_num)
          omega
    · -- double
      have hJ10 : 10 ≤ J := by simpa [FloatType.p, FloatType.W] using hJ
      have h768 : 768 ≤ 3 * 2 ^ (J - 2) := by
        have : 2 ^ 8 ≤ 2 ^ (J - 2) := Nat.pow_le_pow_right (by norm_num) (by omega)
        omega
      have hs35 : 2 ^ s ≤ 2 ^ 35 := Nat.pow_le_pow_right (by norm_num) hsr.2
      have hs32 : 2 ^ 32 ≤ 2 ^ s := Nat.pow_le_pow_right (by norm_num) hsr.1
      by_cases hκ9 : κ = 9
      · refine ⟨7, by simp [mB], by simp [maxSig, hκ9], ?_⟩
        -- relative width of the interval
        have hrel : pl.f ≤ (2 ^ J + 2 ^ (J + 1 - sh)) * 2 ^ 53 := by
          show (2 * f + 1) * 2 ^ J ≤ _
          rw [hshdef]; unfold bshift
          simp only [FloatType.p] at hfp
          by_cases hf : f = 2 ^ (FloatType.p double - 1)
          · have h52 : f = 4503599627370496 := by rw [hf]; norm_num [FloatType.p]
            rw [if_pos hf, h52]
            have hJ1 : J = (J - 1) + 1 := (Nat.sub_add_cancel (le_trans (by norm_num) hJ10)).symm
            have h1 : 2 ^ J = 2 * 2 ^ (J - 1) := by
              conv_lhs => rw [hJ1, pow_succ']
            rw [show J + 1 - 2 = J - 1 by omega, h1]
            generalize 2 ^ (J - 1) = z
            omega
          · rw [if_neg hf]
            simp only [Nat.add_sub_cancel]
            calc (2 * f + 1) * 2 ^ J ≤ 2 ^ 54 * 2 ^ J := Nat.mul_le_mul_right _ (by omega)
              _ = _ := by ring
        have h1 : P * 2 ^ FloatType.W double ≤ (D + 3) * 2 ^ FloatType.W double * 2 ^ 53 := by
          have h2 : pl.f * c.f ≤ (2 ^ J + 2 ^ (J + 1 - sh)) * c.f * 2 ^ 53 := by
            calc pl.f * c.f ≤ (2 ^ J + 2 ^ (J + 1 - sh)) * 2 ^ 53 * c.f := Nat.mul_le_mul_right _ hrel
              _ = _ := by ring
          have h3 : ((2 ^ J + 2 ^ (J + 1 - sh)) * c.f + 1) * 2 ^ 53 ≤
              (P - Q + 1) * 2 ^ FloatType.W double * 2 ^ 53 := Nat.mul_le_mul_right _ hgap
          rw [← hdel] at h3
          -- P * 2^W ≤ pl.f*c.f + 2^(W-1) < (D+3) * 2^W * 2^53 + 2^(W-1)
          by_contra hne
          have h4 : (D + 3) * 2 ^ FloatType.W double * 2 ^ 53 < P * 2 ^ FloatType.W double := by omega
          have h5 : ((D + 3) * 2 ^ 53 + 1) * 2 ^ FloatType.W double ≤ P * 2 ^ FloatType.W double := by
            apply Nat.mul_le_mul_right
            have : ((D + 3) * 2 ^ 53) * 2 ^ FloatType.W double < P * 2 ^ FloatType.W double := by
              calc _ = (D + 3) * 2 ^ FloatType.W double * 2 ^ 53 := by ring
                _ < _ := h4
            exact Nat.lt_of_mul_lt_mul_right this
          have h6 : ((D + 3) * 2 ^ 53 + 1) * 2 ^ FloatType.W double =
            (D + 3) * 2 ^ FloatType.W double * 2 ^ 53 + 2 ^ FloatType.W double := by ring
          omega
        have h2 : P ≤ (D + 3) * 2 ^ 53 := by
          apply Nat.le_of_mul_le_mul_right _ hWpos
          calc _ ≤ _ := h1
            _ = _ := by ring
        rw [hκ9] at hκ1
        clear * - hκ1 h2 hs32 hs35
        generalize 2 ^ s = S at *
        omega
      · refine ⟨8, by simp [mB], by simp only [maxSig]; omega, ?_⟩
        omega
  obtain ⟨m, hm1, hm2, hm3⟩ := hm
  obtain ⟨ds, k, d1, d2, d3, d4, d5, d6, d8, d7⟩ := digitGen_ok T ⟨P - 1, -(s : Int)⟩ ⟨Q + 1, -(s : Int)⟩
    s κ m rfl rfl (by cases T <;> simp only [FloatType.W] at * <;> omega)
    (by cases T <;> simp only [FloatType.W] at * <;> omega) (by simp only; omega) (by simp only; omega)
    hκ1 hκ2 hκb.1 hm3
    (by have : mB T E ≤ T.W := by
          cases T <;> simp only [mB, FloatType.W]
          · split_ifs <;> omega
          · omega
        omega) (by cases T <;> simp [FloatType.W])
  simp only at d3 d4 d8
  refine ⟨ds, -mk + k, by omega, d2, ?_, ?_, ?_, ?_, ?_⟩
  · -- identification
    have hP1 : ((P - 1 : Nat) : ℚ) = P - 1 := by
      push_cast [Nat.cast_sub (show 1 ≤ P by omega)]; ring
    have hQ1 : ((Q + 1 : Nat) : ℚ) = Q + 1 := by push_cast; ring
    rw [hP1] at d4
    rw [hQ1] at d3
    have hus : (0 : ℚ) < 2 ^ (-(s : Int)) := by positivity
    have hss : (2 : ℚ) ^ s * 2 ^ (-(s : Int)) = 1 := by
      rw [zpow_neg, zpow_natCast]; exact mul_inv_cancel₀ (by positivity)
    have h10 : (0 : ℚ) < 10 ^ mk := by positivity
    have hx : (digitsVal ds : ℚ) * 10 ^ (-mk + k) * 10 ^ mk = digitsVal ds * 10 ^ k := by
      rw [mul_assoc, ← zpow_add₀ (by norm_num)]; congr 2; ring
    set x : ℚ := digitsVal ds * 10 ^ (-mk + k) with hxdef
    rw [abs_lt] at herrp herrm
    have hd3 : ((Q : ℚ) + 1) * 2 ^ (-(s : Int)) ≤ x * 10 ^ mk := by
      have := mul_le_mul_of_nonneg_right d3 hus.le
      rw [hx]
      calc _ ≤ _ := this
        _ = _ := by rw [mul_assoc, hss, mul_one]
    have hd4 : x * 10 ^ mk ≤ ((P : ℚ) - 1) * 2 ^ (-(s : Int)) := by
      have := mul_le_mul_of_nonneg_right d4 hus.le
      rw [hx]
      calc _ = _ := by rw [mul_assoc, hss, mul_one]
        _ ≤ _ := this
    have hup : x < pl.f * 2 ^ E := by
      have : x * 10 ^ mk < pl.f * 2 ^ E * 10 ^ mk := by
        have h1 := herrp.2
        have h2 : (pl.e : Int) = E := rfl
        rw [h2] at h1
        linarith
      exact lt_of_mul_lt_mul_right this h10.le
    have hdn : (mi.f : ℚ) * 2 ^ E < x := by
      have : (mi.f : ℚ) * 2 ^ E * 10 ^ mk < x * 10 ^ mk := by
        have h1 := herrm.1
        have h2 : (mi.e : Int) = E := rfl
        rw [h2] at h1
        linarith
      exact lt_of_mul_lt_mul_right this h10.le
    -- in units of the least subnormal
    have hem := emin_pos T
    have hpl' : (pl.f : ℚ) * 2 ^ E = (2 * f + 1) * 2 ^ st / 2 * 2 ^ emin T := by
      have : (pl.f : ℚ) = (2 * f + 1) * 2 ^ J := by rw [hpl]; push_cast; ring
      rw [this, hEdef, zpow_sub₀ (by norm_num), zpow_sub₀ (by norm_num), zpow_add₀ (by norm_num),
        zpow_natCast, zpow_natCast, zpow_one]
      have : (2 : ℚ) ^ J ≠ 0 := by positivity
      field_simp
    have hmi' : (mi.f : ℚ) * 2 ^ E = (f * 2 ^ sh - 1) * (2 ^ st * 2 / 2 ^ sh) / 2 * 2 ^ emin T := by
      have h1 : (mi.f : ℚ) = (f * 2 ^ sh - 1) * (2 ^ J * 2 / 2 ^ sh) := by
        rw [hmi]; push_cast [Nat.cast_sub (show 1 ≤ f * 2 ^ sh by omega)]
        rw [eq_comm]
        congr 1
        rw [div_eq_iff (by positivity), ← pow_add, show J + 1 - sh + sh = J + 1 by omega]; ring
      rw [h1, hEdef, zpow_sub₀ (by norm_num), zpow_sub₀ (by norm_num), zpow_add₀ (by norm_num),
        zpow_natCast, zpow_natCast, zpow_one]
      have : (2 : ℚ) ^ J ≠ 0 := by positivity
      field_simp
    have hX : x = (x / 2 ^ emin T) * 2 ^ emin T := by field_simp
    rw [hX]
    rw [hpl'] at hup
    rw [hmi'] at hdn
    rw [hX] at hup hdn
    have hup2 := lt_of_mul_lt_mul_right hup hem.le
    have hdn2 := lt_of_mul_lt_mul_right hdn hem.le
    apply closest_pos hfin
    · have : (0 : ℚ) ≤ x := by positivity
      positivity
    · right
      calc ((N T (a - 1) : ℚ) + N T a) ≤ _ := hlow
        _ < _ := by linarith
    · rw [hNs, hNa, hulp]
      push_cast
      linarith
  · have := hmk3
    cases T <;> simp only [FloatType.powLo, FloatType.powHi] at * <;> omega
  · have h4 := hκb.2
    have h5 := hκb.1
    clear * - h4 h5 d6 hmk1
    cases T
    · have := h4 rfl
      simp only [FloatType.powHi, mkLo] at *; omega
    · simp only [FloatType.powHi, mkLo] at *; omega
  · have hP1 : ((P - 1 : Nat) : ℚ) = P - 1 := by
      push_cast [Nat.cast_sub (show 1 ≤ P by omega)]; ring
    have hQ1 : ((Q + 1 : Nat) : ℚ) = Q + 1 := by push_cast; ring
    rw [hP1] at d4 d8
    rw [hQ1] at d3
    have hus : (0 : ℚ) < 2 ^ (-(s : Int)) := by positivity
    have hss : (2 : ℚ) ^ s * 2 ^ (-(s : Int)) = 1 := by
      rw [zpow_neg, zpow_natCast]; exact mul_inv_cancel₀ (by positivity)
    have hxx : ∀ q : ℚ, q * 10 ^ (-mk + k) * 10 ^ mk = q * 10 ^ k := by
      intro q
      rw [mul_assoc, ← zpow_add₀ (by norm_num)]; congr 2; ring
    have hx := hxx (digitsVal ds)
    refine ⟨mi, pl, c, mk, hbd, rfl, ?_, hplt, hmk.symm, hc0, ?_, ?_, ?_⟩
    · rw [← hplmi]; exact Nat.lt_add_of_pos_right (by positivity)
    · rw [hem, hs, hx]
      have := mul_le_mul_of_nonneg_right d3 hus.le
      calc _ ≤ _ := this
        _ = _ := by rw [mul_assoc, hss, mul_one]
    · rw [hep, hs, hx]
      have := mul_le_mul_of_nonneg_right d4 hus.le
      calc _ = _ := by rw [mul_assoc, hss, mul_one]
        _ ≤ _ := this
    · rw [hep, hs, hxx]
      have := mul_lt_mul_of_pos_right d8 hus
      calc _ < _ := this
        _ = _ := by rw [mul_assoc, hss, mul_one]
  · intro o pre rest hpre hrest
    unfold grisu2 grisu2At
    rw [hbd, ok_bind]
    have hple : pl.e = E := rfl
    simp only [hple, kComp_double, hmk]
    rw [hc0, ok_bind]
    rw [hMp, hMm, d7 _ o pre rest hpre hrest]

/-- Grisu2 on a finite non-zero value. -/
theorem grisu2_ok (T : FloatType) (bits : Nat) (hb : bits < 2 ^ T.W)
    (hfin : absPat T bits < posInf T) (h0 : absPat T bits ≠ 0) :
    ∃ (ds : List (Fin 10)) (k : Int), ds.length ≤ maxSig T ∧
      (∃ h : ds ≠ [], ds.head h ≠ 0 ∧ ds.getLast h ≠ 0) ∧
      Identifies T (digitsVal ds * 10 ^ k) (absPat T bits) ∧
      T.powLo ≤ k ∧ k ≤ T.powHi ∧
      ∀ (o : Nat) (pre rest : List Nat), pre.length = o → ds.length ≤ rest.length →
        grisu2 T bits (pre ++ rest) o =
          .ok (pre ++ ds.map digitChar ++ rest.drop ds.length, ds.length, k) := by
  obtain ⟨ds, k, a1, a2, a3, a4, a5, -, a6⟩ := grisu2_full T bits hb hfin h0
  exact ⟨ds, k, a1, a2, a3, a4, a5, a6⟩

end Floaxie
