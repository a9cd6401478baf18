import Verif.Spec.Text
import Verif.Proof.Grisu
import Verif.Proof.IeeeMore
import Verif.Proof.Ftoa
import Verif.Model.Ftoa
import Mathlib.Data.Rat.Floor
import Mathlib.Analysis.SpecialFunctions.Log.Base

/-!
# The floating point expression in the printer (C66)
-/

namespace Floaxie

open Spec FloatType

/-! ## The check of the exponents -/

/-- How far `(alpha - e - 1) * lg_2` stays from the integers, for exponent `lo + i`. -/
def evalCheck (T : FloatType) (i : Nat) : Bool :=
  let e := bndLo T + i
  let x := T.alpha - e - 1
  let k := kCompExp T.alpha e
  decide (x = 0 → k = 0) &&
    decide (x ≠ 0 → (4096 * (k - 1) + 1) * 2 ^ 54 ≤ 4096 * (x * lg2) ∧ 4096 * (x * lg2) ≤ (4096 * k - 1) * 2 ^ 54)

theorem evalCheck_float : (List.range 277).all (evalCheck .float) = true := by decide +kernel
theorem evalCheck_double : (List.range 2098).all (evalCheck .double) = true := by decide +kernel

theorem eval_gap (T : FloatType) (e : Int) (h1 : bndLo T ≤ e) (h2 : e ≤ bndHi T) :
    (T.alpha - e - 1 = 0 → kCompExp T.alpha e = 0) ∧
    (T.alpha - e - 1 ≠ 0 → (4096 * (kCompExp T.alpha e - 1) + 1) * 2 ^ 54 ≤ 4096 * ((T.alpha - e - 1) * lg2) ∧
      4096 * ((T.alpha - e - 1) * lg2) ≤ (4096 * kCompExp T.alpha e - 1) * 2 ^ 54) := by
  have hc : evalCheck T (e - bndLo T).toNat = true := by
    cases T
    · exact List.all_eq_true.mp evalCheck_float _ (List.mem_range.mpr (by simp only [bndHi, bndLo] at *; omega))
    · exact List.all_eq_true.mp evalCheck_double _ (List.mem_range.mpr (by simp only [bndHi, bndLo] at *; omega))
  have he : bndLo T + ((e - bndLo T).toNat : Int) = e := by omega
  unfold evalCheck at hc
  simp only [he, Bool.and_eq_true, decide_eq_true_eq] at hc
  exact hc

/-- Powers of ten around the power of two, for exponent `lo + i`. -/
def ceilCheck (T : FloatType) (i : Nat) : Bool :=
  let e := bndLo T + i
  let x := T.alpha - e - 1
  let k := kCompExp T.alpha e
  -- 2^x <= 10^k and 10^(k-1) < 2^x, cleared of negative exponents
  decide (2 ^ x.toNat * 10 ^ (-k).toNat ≤ 10 ^ k.toNat * 2 ^ (-x).toNat) &&
    decide (10 ^ (k - 1).toNat * 2 ^ (-x).toNat < 2 ^ x.toNat * 10 ^ (1 - k).toNat)

theorem ceilCheck_float : (List.range 277).all (ceilCheck .float) = true := by decide +kernel
theorem ceilCheck_double : (List.range 2098).all (ceilCheck .double) = true := by decide +kernel

theorem zpow_split_toNat (b : ℚ) (hb : b ≠ 0) (n : Int) : b ^ n * b ^ (-n).toNat = b ^ n.toNat := by
  rw [← zpow_natCast, ← zpow_natCast, ← zpow_add₀ hb]
  congr 1; omega

theorem ceil_pow (T : FloatType) (e : Int) (h1 : bndLo T ≤ e) (h2 : e ≤ bndHi T) :
    (10 : ℚ) ^ (kCompExp T.alpha e - 1) < 2 ^ (T.alpha - e - 1) ∧ (2 : ℚ) ^ (T.alpha - e - 1) ≤ 10 ^ kCompExp T.alpha e := by
  have hc : ceilCheck T (e - bndLo T).toNat = true := by
    cases T
    · exact List.all_eq_true.mp ceilCheck_float _ (List.mem_range.mpr (by simp only [bndHi, bndLo] at *; omega))
    · exact List.all_eq_true.mp ceilCheck_double _ (List.mem_range.mpr (by simp only [bndHi, bndLo] at *; omega))
  have he : bndLo T + ((e - bndLo T).toNat : Int) = e := by omega
  unfold ceilCheck at hc
  simp only [he, Bool.and_eq_true, decide_eq_true_eq] at hc
  generalize T.alpha - e - 1 = x at *
  generalize kCompExp T.alpha e = k at *
  obtain ⟨c1, c2⟩ := hc
  have p2 : (0 : ℚ) < 2 ^ (-x).toNat := by positivity
  have p10 : (0 : ℚ) < 10 ^ (-k).toNat := by positivity
  have p10' : (0 : ℚ) < 10 ^ (-(k - 1)).toNat := by positivity
  have s2 := zpow_split_toNat 2 (by norm_num) x
  have s10 := zpow_split_toNat 10 (by norm_num) k
  have s10' := zpow_split_toNat 10 (by norm_num) (k - 1)
  have c1' : ((2 : ℚ) ^ x.toNat * 10 ^ (-k).toNat) ≤ 10 ^ k.toNat * 2 ^ (-x).toNat := by exact_mod_cast c1
  have c2' : ((10 : ℚ) ^ (k - 1).toNat * 2 ^ (-x).toNat) < 2 ^ x.toNat * 10 ^ (-(k - 1)).toNat := by
    rw [show -(k - 1) = 1 - k by omega]; exact_mod_cast c2
  rw [← s2, ← s10] at c1'
  rw [← s2, ← s10'] at c2'
  generalize (2 : ℚ) ^ x = A at *
  generalize (10 : ℚ) ^ k = B at *
  generalize (10 : ℚ) ^ (k - 1) = C at *
  generalize (2 : ℚ) ^ (-x).toNat = u at *
  generalize (10 : ℚ) ^ (-k).toNat = v at *
  generalize (10 : ℚ) ^ (-(k - 1)).toNat = w at *
  constructor
  · by_contra hn
    have : A * (u * w) ≤ C * (u * w) := mul_le_mul_of_nonneg_right (not_lt.mp hn) (by positivity)
    nlinarith
  · by_contra hn
    have : B * (u * v) < A * (u * v) := mul_lt_mul_of_pos_right (not_le.mp hn) (by positivity)
    nlinarith

/-! ## C66 -/

/-- Conversion of a floating point number to an integer type: toward zero. -/
def Spec.truncate (s : ℚ) : Int := if 0 ≤ s then ⌊s⌋ else ⌈s⌉

/-- The value of the constant `lg_2`. -/
def Spec.lgTwo : ℚ := 5422874305198590 / 2 ^ 54

/-- An evaluation of `(alpha - e - 1) * lg_2 + (e + 1 < alpha)` in which the
product and the sum each come out with a relative error of at most 2^-24 (the
precision of `float`; `double` and wider types, and fused multiply-add, do
better), and the result is converted toward zero. -/
def Spec.Reasonable (E : FpEval) : Prop :=
  ∀ alpha e : Int, ∃ prod sum : ℚ,
    |prod - ((alpha - e - 1 : Int) : ℚ) * lgTwo| ≤ |((alpha - e - 1 : Int) : ℚ) * lgTwo| / 2 ^ 24 ∧
    |sum - (prod + if e + 1 < alpha then 1 else 0)| ≤ |prod + if e + 1 < alpha then 1 else 0| / 2 ^ 24 ∧
    E.kComp alpha e = truncate sum

theorem trunc_pos {s : ℚ} {k : Int} (hk : 0 ≤ k) (h1 : (k : ℚ) ≤ s) (h2 : s < k + 1) : truncate s = k := by
  unfold truncate
  rw [if_pos (le_trans (by exact_mod_cast hk) h1)]
  exact Int.floor_eq_iff.mpr ⟨h1, h2⟩

theorem trunc_neg {s : ℚ} {k : Int} (hk : k ≤ 0) (h1 : (k : ℚ) - 1 < s) (h2 : s < k) : truncate s = k := by
  unfold truncate
  have : (k : ℚ) ≤ 0 := by exact_mod_cast hk
  rw [if_neg (by linarith)]
  exact Int.ceil_eq_iff.mpr ⟨h1, h2.le⟩

theorem kComp_reasonable {E : FpEval} (hE : Reasonable E) (T : FloatType) (e : Int) (h1 : bndLo T ≤ e) (h2 : e ≤ bndHi T) :
    E.kComp T.alpha e = kCompExp T.alpha e := by
  obtain ⟨P, S, hP, hS, hk⟩ := hE T.alpha e
  rw [hk]
  obtain ⟨g0, g1⟩ := eval_gap T e h1 h2
  have hx : -1100 ≤ T.alpha - e - 1 ∧ T.alpha - e - 1 ≤ 1200 := by
    cases T <;> simp only [FloatType.alpha, FloatType.W, bndLo, bndHi] at * <;> omega
  have hbit : (e + 1 < T.alpha) ↔ 0 < T.alpha - e - 1 := by omega
  simp only [hbit] at hS
  generalize T.alpha - e - 1 = x at *
  generalize kCompExp T.alpha e = k at *
  by_cases hx0 : x = 0
  · subst hx0
    rw [g0 rfl]
    simp only [Int.cast_zero, zero_mul, sub_zero, abs_zero, zero_div, lt_irrefl, if_false, add_zero] at hP hS
    have hP0 : P = 0 := abs_nonpos_iff.mp hP
    rw [hP0, sub_zero, abs_zero, zero_div] at hS
    rw [abs_nonpos_iff.mp hS]
    rfl
  obtain ⟨q1, q2⟩ := g1 hx0
  have hN : ((x : ℚ) * lgTwo) = ((x * lg2 : Int) : ℚ) / 2 ^ 54 := by
    unfold lgTwo lg2; push_cast; ring
  have r1 : (k : ℚ) - 1 + 1 / 4096 ≤ x * lgTwo := by
    rw [hN, le_div_iff₀ (by positivity)]
    have : (((4096 * (k - 1) + 1) * 2 ^ 54 : Int) : ℚ) ≤ ((4096 * (x * lg2) : Int) : ℚ) := by exact_mod_cast q1
    push_cast at this ⊢
    linarith
  have r2 : (x : ℚ) * lgTwo ≤ k - 1 / 4096 := by
    rw [hN, div_le_iff₀ (by positivity)]
    have : ((4096 * (x * lg2) : Int) : ℚ) ≤ (((4096 * k - 1) * 2 ^ 54 : Int) : ℚ) := by exact_mod_cast q2
    push_cast at this ⊢
    linarith
  have hlg : (0 : ℚ) < lgTwo ∧ lgTwo < 1 / 3 := by unfold lgTwo; constructor <;> norm_num
  have hxq : (-1100 : ℚ) ≤ x ∧ (x : ℚ) ≤ 1200 := ⟨by exact_mod_cast hx.1, by exact_mod_cast hx.2⟩
  rcases lt_or_gt_of_ne hx0 with hneg | hpos
  · have hxn : (x : ℚ) ≤ -1 := by exact_mod_cast (show x ≤ -1 by omega)
    rw [if_neg (by omega), add_zero] at hS
    have hNn : (x : ℚ) * lgTwo < 0 := by nlinarith
    have hNl : -400 ≤ (x : ℚ) * lgTwo := by nlinarith
    generalize (x : ℚ) * lgTwo = N at *
    have hk0 : k ≤ 0 := by
      have : (k : ℚ) < 1 := by linarith
      have : k < 1 := by exact_mod_cast this
      omega
    rw [abs_of_neg hNn] at hP
    have hP' := abs_le.mp hP
    have hPn : P ≤ 0 := by linarith [hP'.2, show -N / 2 ^ 24 ≤ -N by apply div_le_self <;> norm_num; linarith]
    rw [abs_of_nonpos hPn] at hS
    have hS' := abs_le.mp hS
    have e1 : -N / 2 ^ 24 ≤ 1 / 32768 := by rw [div_le_iff₀ (by norm_num)]; norm_num; linarith
    have e2 : -P / 2 ^ 24 ≤ 1 / 32768 := by rw [div_le_iff₀ (by norm_num)]; norm_num; linarith
    exact trunc_neg hk0 (by linarith [hP'.1, hS'.1]) (by linarith [hP'.2, hS'.2])
  · have hxn : (1 : ℚ) ≤ x := by exact_mod_cast (show 1 ≤ x by omega)
    rw [if_pos hpos] at hS
    have hNn : 0 < (x : ℚ) * lgTwo := by nlinarith
    have hNl : (x : ℚ) * lgTwo ≤ 400 := by nlinarith
    generalize (x : ℚ) * lgTwo = N at *
    have hk0 : 0 ≤ k := by
      have : (-1 : ℚ) < k := by linarith
      have : -1 < k := by exact_mod_cast this
      omega
    rw [abs_of_pos hNn] at hP
    have hP' := abs_le.mp hP
    have e1 : N / 2 ^ 24 ≤ 1 / 32768 := by rw [div_le_iff₀ (by norm_num)]; norm_num; linarith
    have hPn : 0 ≤ P + 1 := by linarith
    rw [abs_of_nonneg hPn] at hS
    have hS' := abs_le.mp hS
    have e2 : (P + 1) / 2 ^ 24 ≤ 1 / 32768 := by rw [div_le_iff₀ (by norm_num)]; norm_num; linarith
    exact trunc_pos hk0 (by linarith [hP'.1, hS'.1]) (by linarith [hP'.2, hS'.2])

theorem grisu2_reasonable {E : FpEval} (hE : Reasonable E) (T : FloatType) (bits : Nat) (hb : bits < 2 ^ T.W)
    (hfin : absPat T bits < posInf T) (h0 : absPat T bits ≠ 0) (buf : List Nat) (o : Nat) :
    @grisu2 E T bits buf o = @grisu2 doubleEval T bits buf o := by
  obtain ⟨J, E', -, -, -, -, -, -, -, h1, h2, hbd⟩ := boundaries_ok T bits hb hfin h0
  unfold grisu2 grisu2At
  rw [hbd, ok_bind, ok_bind]
  simp only [kComp_reasonable hE T E' h1 h2]
  rfl

/-- **C66.** What is printed does not depend on how the implementation evaluates
the floating point expression in the printer - in which precision, with or
without contraction, in which rounding mode: the call has the same outcome (and
leaves the same buffer) for every value and every buffer. -/
theorem C66_same_text (T : FloatType) (E : FpEval) (hE : Reasonable E) (bits : Nat) (hb : bits < 2 ^ T.W) (buf : List Nat) :
    @ftoa E T bits buf = @ftoa doubleEval T bits buf ∧ @toBasicString E T bits = @toBasicString doubleEval T bits := by
  have key : ∀ buf, @ftoa E T bits buf = @ftoa doubleEval T bits buf := by
    intro buf
    unfold ftoa
    by_cases hn : isNan T bits = true
    · rw [if_pos hn, if_pos hn]
    by_cases hi : isInf T bits = true
    · rw [if_neg hn, if_neg hn, if_pos hi, if_pos hi]
    by_cases hz : isZero T bits = true
    · rw [if_neg hn, if_neg hn, if_neg hi, if_neg hi, if_pos hz, if_pos hz]
    rw [if_neg hn, if_neg hn, if_neg hi, if_neg hi, if_neg hz, if_neg hz]
    have hfin : absPat T bits < posInf T := by
      unfold isNan at hn; unfold isInf at hi
      rw [absBits_eq, infBits_eq, decide_eq_true_eq] at hn hi
      omega
    have h0 : absPat T bits ≠ 0 := by
      unfold isZero at hz
      rwa [absBits_eq, decide_eq_true_eq] at hz
    congr 1
    funext b
    dsimp only
    rw [grisu2_reasonable hE T bits hb hfin h0]
  refine ⟨key buf, ?_⟩
  unfold toBasicString
  rw [key]

/-- **C66, the exponent itself.** For the upper boundary `p` of every finite
non-zero value the decimal scaling exponent is, in every such evaluation,
exactly `⌈(α - e - 1) log₁₀ 2⌉`, as the paper demands. -/
theorem C66_scaling_exponent (T : FloatType) (E : FpEval) (hE : Reasonable E) (bits : Nat) (hf : IsFinite T bits)
    (h0 : value T bits ≠ 0) :
    ∃ m p : DiyFp, boundaries T bits = .ok (m, p) ∧
      E.kComp T.alpha p.e = ⌈((T.alpha - p.e - 1 : Int) : ℝ) * Real.logb 10 2⌉ := by
  obtain ⟨J, E', -, -, -, -, -, -, -, h1, h2, h3⟩ := boundaries_ok T bits hf.1 (absPat_lt_posInf hf)
    (fun h => h0 (value_zero_iff.mpr h))
  refine ⟨_, _, h3, ?_⟩
  dsimp only
  rw [kComp_reasonable hE T E' h1 h2]
  obtain ⟨c1, c2⟩ := ceil_pow T E' h1 h2
  generalize T.alpha - E' - 1 = x at *
  generalize kCompExp T.alpha E' = k at *
  have c1' : ((10 : ℝ) ^ (k - 1)) < 2 ^ x := by
    have := (Rat.cast_lt (K := ℝ)).mpr c1
    push_cast at this; exact this
  have c2' : ((2 : ℝ) ^ x) ≤ 10 ^ k := by
    have := (Rat.cast_le (K := ℝ)).mpr c2
    push_cast at this; exact this
  have l10 : ∀ n : Int, Real.logb 10 ((10 : ℝ) ^ n) = n := fun n => by
    rw [Real.logb, Real.log_zpow, mul_div_assoc, div_self (Real.log_pos (by norm_num)).ne', mul_one]
  have l2 : Real.logb 10 ((2 : ℝ) ^ x) = x * Real.logb 10 2 := by
    rw [Real.logb, Real.log_zpow, mul_div_assoc, Real.logb]
  symm
  rw [Int.ceil_eq_iff, ← l2]
  constructor
  · have := Real.logb_lt_logb (b := 10) (by norm_num) (by positivity) c1'
    rw [l10] at this
    push_cast at this
    exact this
  · have := Real.logb_le_logb_of_le (b := 10) (by norm_num) (by positivity) c2'
    rwa [l10] at this

/-! ### Implementations this covers -/

theorem rne53_err (n : Int) : |((rne53 n : Int) : ℚ) - n| ≤ |(n : ℚ)| / 2 ^ 24 := by
  unfold rne53
  dsimp only
  split_ifs with h1 h2
  · rw [sub_self, abs_zero]; positivity
  all_goals
    have ha0 : n.natAbs ≠ 0 := by intro h; rw [h] at h1; exact h1 (by decide)
    have hlog := Nat.log2_self_le ha0
    set a := n.natAbs with ha
    set s := Nat.log2 a + 1 - 53 with hs
    have hsz : 2 ^ s * 2 ^ 52 ≤ a := by
      rw [← pow_add, show s + 52 = Nat.log2 a by omega]; exact hlog
    have hdm : a = a >>> s * 2 ^ s + a % 2 ^ s := by
      rw [Nat.shiftRight_eq_div_pow]; exact (Nat.div_add_mod' a (2 ^ s)).symm
    have hr : a % 2 ^ s < 2 ^ s := Nat.mod_lt _ (by positivity)
    generalize a >>> s = q at *
    generalize a % 2 ^ s = r at *
    have hn : (n : ℚ) = (n.sign : ℚ) * (a : ℚ) := by
      have h := Int.sign_mul_natAbs n
      rw [← ha] at h
      have h' : ((n.sign * (a : Int) : Int) : ℚ) = n := by rw [h]
      rw [← h', Int.cast_mul, Int.cast_natCast]
    have hsg : |((n.sign : Int) : ℚ)| ≤ 1 := by
      rcases lt_trichotomy n 0 with h | h | h
      · rw [Int.sign_eq_neg_one_of_neg h]; norm_num
      · rw [h]; norm_num
      · rw [Int.sign_eq_one_of_pos h]; norm_num
    have habs : |(n : ℚ)| = a := by
      rw [ha, ← Int.cast_abs, Int.abs_eq_natAbs]; rfl
    rw [habs]
    have hsz' : ((2 : ℚ) ^ s) * 2 ^ 52 ≤ a := by exact_mod_cast hsz
    have hdm' : (a : ℚ) = q * 2 ^ s + r := by exact_mod_cast hdm
    have hr' : (r : ℚ) < 2 ^ s := by exact_mod_cast hr
    have hr0 : (0 : ℚ) ≤ r := by positivity
    rw [Nat.shiftLeft_eq, hn]
    push_cast
    rw [← mul_sub, abs_mul]
    refine le_trans (mul_le_of_le_one_left (abs_nonneg _) hsg) ?_
    rw [le_div_iff₀ (by norm_num), hdm']
    rw [hdm'] at hsz'
    generalize (2 : ℚ) ^ s = t at *
  · rw [show ((q : ℚ) + 1) * t - (q * t + r) = t - r by ring, abs_of_nonneg (by linarith)]
    nlinarith
  · rw [show (q : ℚ) * t - (q * t + r) = -r by ring, abs_neg, abs_of_nonneg hr0]
    nlinarith

theorem tdiv_truncate (n : Int) : Int.tdiv n (2 ^ 54) = truncate ((n : ℚ) / 2 ^ 54) := by
  rcases le_or_gt 0 n with h | h
  · have hn : (0 : ℚ) ≤ n := by exact_mod_cast h
    unfold truncate
    rw [if_pos (by positivity), Int.tdiv_eq_ediv_of_nonneg h]
    symm
    rw [Int.floor_eq_iff, le_div_iff₀ (by positivity), div_lt_iff₀ (by positivity)]
    have h1 := Int.ediv_mul_le n (show (2 ^ 54 : Int) ≠ 0 by norm_num)
    have h2 := Int.lt_ediv_add_one_mul_self n (show (0 : Int) < 2 ^ 54 by norm_num)
    exact ⟨by exact_mod_cast h1, by exact_mod_cast h2⟩
  · have hn : (n : ℚ) < 0 := by exact_mod_cast h
    unfold truncate
    rw [if_neg (not_le.mpr (div_neg_of_neg_of_pos hn (by positivity)))]
    obtain ⟨m, rfl⟩ : ∃ m, n = -m := ⟨-n, by ring⟩
    rw [Int.neg_tdiv, Int.tdiv_eq_ediv_of_nonneg (by omega)]
    symm
    rw [Int.ceil_eq_iff]
    have h1 := Int.ediv_mul_le m (show (2 ^ 54 : Int) ≠ 0 by norm_num)
    have h2 := Int.lt_ediv_add_one_mul_self m (show (0 : Int) < 2 ^ 54 by norm_num)
    have h1' : ((m / 2 ^ 54 : Int) : ℚ) * 2 ^ 54 ≤ m := by exact_mod_cast h1
    have h2' : (m : ℚ) < ((m / 2 ^ 54 : Int) + 1) * 2 ^ 54 := by exact_mod_cast h2
    push_cast
    rw [lt_div_iff₀ (by positivity), div_le_iff₀ (by positivity)]
    constructor <;> linarith

theorem scaled_err (n : Int) (v : ℚ) (hv : v = n / 2 ^ 54) : |((rne53 n : Int) : ℚ) / 2 ^ 54 - v| ≤ |v| / 2 ^ 24 := by
  have h := rne53_err n
  have hD : (0 : ℚ) < 2 ^ 54 := by positivity
  generalize (2 : ℚ) ^ 54 = D at *
  rw [hv, ← sub_div, abs_div, abs_div, abs_of_pos hD, div_right_comm]
  exact div_le_div_of_nonneg_right h hD.le

theorem lg_scaled (x : Int) : (x : ℚ) * lgTwo = ((x * lg2 : Int) : ℚ) / 2 ^ 54 := by
  unfold lgTwo lg2; push_cast; ring

theorem bit_scaled (n : Int) (c : Prop) [Decidable c] :
    (n : ℚ) / 2 ^ 54 + (if c then 1 else 0) = ((n + (if c then 2 ^ 54 else 0) : Int) : ℚ) / 2 ^ 54 := by
  split_ifs <;> push_cast <;> ring

/-- The evaluation assumed elsewhere: both operations rounded to `double`. -/
theorem C66_double_evaluation : Reasonable doubleEval := by
  intro alpha e
  refine ⟨((rne53 ((alpha - e - 1) * lg2) : Int) : ℚ) / 2 ^ 54,
    ((rne53 (rne53 ((alpha - e - 1) * lg2) + if e + 1 < alpha then 2 ^ 54 else 0) : Int) : ℚ) / 2 ^ 54, ?_, ?_, ?_⟩
  · exact scaled_err _ _ (lg_scaled _)
  · exact scaled_err _ _ (bit_scaled _ _)
  · show kCompExp alpha e = _
    unfold kCompExp
    exact tdiv_truncate _

/-- Exact evaluation (in a type wide enough, such as the 64 bits of x87). -/
@[reducible] def exactEval : FpEval :=
  ⟨fun alpha e => truncate (((alpha - e - 1 : Int) : ℚ) * lgTwo + if e + 1 < alpha then 1 else 0)⟩

example : Reasonable exactEval := fun alpha e =>
  ⟨_, _, by rw [sub_self, abs_zero]; positivity, by rw [sub_self, abs_zero]; positivity, rfl⟩

/-- A fused multiply-add: the exact sum rounded once. -/
@[reducible] def fmaEval : FpEval :=
  ⟨fun alpha e => Int.tdiv (rne53 ((alpha - e - 1) * lg2 + if e + 1 < alpha then 2 ^ 54 else 0)) (2 ^ 54)⟩

example : Reasonable fmaEval := by
  intro alpha e
  refine ⟨((alpha - e - 1 : Int) : ℚ) * lgTwo,
    ((rne53 ((alpha - e - 1) * lg2 + if e + 1 < alpha then 2 ^ 54 else 0) : Int) : ℚ) / 2 ^ 54, ?_, ?_, ?_⟩
  · rw [sub_self, abs_zero]; positivity
  · refine scaled_err _ _ ?_
    rw [lg_scaled]
    exact bit_scaled _ _
  · exact tdiv_truncate _

/-- An evaluation further off does change what is printed: the hypothesis matters. -/
example : @toBasicString ⟨fun a e => kCompExp a e + 9⟩ .double 0x3FF0000000000000 ≠
    @toBasicString doubleEval .double 0x3FF0000000000000 := by
  decide +kernel

end Floaxie
