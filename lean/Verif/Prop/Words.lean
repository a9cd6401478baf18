import Verif.Spec.Text
import Verif.Proof.Grisu
import Verif.Proof.IeeeMore
import Verif.Proof.Tables
import Mathlib.Data.Rat.Floor

/-!
# Properties of the extended precision layer (C13 - C19)
-/

namespace Floaxie

open Spec FloatType

/-- Largest decimal exponent of the power tables. -/
def Spec.tableRange : FloatType → Nat
  | .float => 50
  | .double => 343

/-- **C13.** Every table entry is normalized and within half a unit in the last
place of the power of ten. -/
theorem C13_tables (T : FloatType) (k : Int) (hk : k.natAbs ≤ tableRange T) :
    ∃ c : DiyFp, cachedPower T k = .ok c ∧ 2 ^ (T.W - 1) ≤ c.f ∧ c.f < 2 ^ T.W ∧
      |(c.f : ℚ) * 2 ^ c.e - 10 ^ k| ≤ 1 / 2 * 2 ^ c.e := by
  apply cachedPower_ok
  · cases T <;> simp [powLo, tableRange] at hk ⊢ <;> omega
  · cases T <;> simp [powHi, tableRange] at hk ⊢ <;> omega

example : cachedPower .double 0 = .ok { f := 2 ^ 63, e := -63 } := by decide

/-- **C14.** For every finite non-zero value the decimal scaling exponent chosen
by `k_comp_exp` is in the table, and the exponent of the scaled upper boundary
lies in the Grisu window. -/
theorem C14_scaling_window (T : FloatType) (bits : Nat) (hf : IsFinite T bits)
    (h0 : value T bits ≠ 0) :
    ∃ m p c : DiyFp, boundaries T bits = .ok (m, p) ∧ m.e = p.e ∧
      (kCompExp T.alpha p.e).natAbs ≤ tableRange T ∧
      cachedPower T (kCompExp T.alpha p.e) = .ok c ∧
      -((T.W / 2 : Nat) : Int) - 3 ≤ (p.mul T.W c).e ∧ (p.mul T.W c).e ≤ -((T.W / 2 : Nat) : Int) := by
  obtain ⟨J, E, -, -, -, -, -, -, -, h1, h2, h3⟩ := boundaries_ok T bits hf.1 (absPat_lt_posInf hf)
    (fun h => h0 (value_zero_iff.mpr h))
  obtain ⟨k1, k2, k3, k4⟩ := kComp_ok T E h1 h2
  have hr : (kCompExp T.alpha E).natAbs ≤ tableRange T := by
    cases T <;> simp [mkLo, mkHi, tableRange] at k1 k2 ⊢ <;> omega
  obtain ⟨c, hc, -⟩ := C13_tables T _ hr
  refine ⟨_, _, c, h3, rfl, hr, hc, ?_⟩
  obtain ⟨w1, w2⟩ := k4 c hc
  rw [mul_e]
  dsimp only
  cases T <;> simp only [FloatType.alpha, FloatType.gamma, FloatType.W] at w1 w2 ⊢ <;> omega

/-- The least subnormal and the largest finite double, and what is chosen for them. -/
example : (IsFinite .double 1 ∧ value .double 1 ≠ 0) ∧
    (IsFinite .double 0x7FEFFFFFFFFFFFFF ∧ value .double 0x7FEFFFFFFFFFFFFF ≠ 0) ∧
    ((boundaries .double 1).toOption.map fun r => kCompExp (FloatType.alpha .double) r.2.e) = some 332 ∧
    ((boundaries .double 0x7FEFFFFFFFFFFFFF).toOption.map
      fun r => kCompExp (FloatType.alpha .double) r.2.e) = some (-299) :=
  ⟨⟨⟨by decide, by decide⟩, by decide +kernel⟩, ⟨⟨by decide, by decide⟩, by decide +kernel⟩,
   by decide +kernel, by decide +kernel⟩

/-- **C15.** The product is the exact product rounded to the nearest multiple of
`2^W` (half up), it fits a word, and the exponents add. -/
theorem C15_mul (T : FloatType) (x y : DiyFp) (hx : x.f < 2 ^ T.W) (hy : y.f < 2 ^ T.W) :
    (x.mul T.W y).e = x.e + y.e + T.W ∧
    ((x.mul T.W y).f : ℤ) = ⌊((x.f * y.f : ℕ) : ℚ) / 2 ^ T.W + 1 / 2⌋ ∧
    (x.mul T.W y).f < 2 ^ T.W := by
  refine ⟨rfl, ?_, ?_⟩
  · rw [mul_f T x y hx hy]
    have h2 : (2 : ℚ) ^ T.W = 2 * 2 ^ (T.W - 1) := by cases T <;> norm_num [FloatType.W]
    have hq : ((x.f * y.f : ℕ) : ℚ) / 2 ^ T.W + 1 / 2 =
        ((x.f * y.f + 2 ^ (T.W - 1) : ℕ) : ℚ) / ((2 ^ T.W : ℕ) : ℚ) := by
      push_cast
      rw [h2]
      field_simp
    rw [hq, Rat.floor_natCast_div_natCast, Int.natCast_ediv]
  · rw [mul_f T x y hx hy]
    apply Nat.div_lt_of_lt_mul
    have h1 : x.f * y.f ≤ (2 ^ T.W - 1) * (2 ^ T.W - 1) := Nat.mul_le_mul (by omega) (by omega)
    have h2 : (2 ^ T.W - 1) * (2 ^ T.W - 1) + 2 ^ (T.W - 1) < 2 ^ T.W * 2 ^ T.W := by
      cases T <;> norm_num [FloatType.W]
    omega

example : (DiyFp.mul 64 ⟨2 ^ 64 - 1, 3⟩ ⟨2 ^ 64 - 1, -7⟩) = ⟨2 ^ 64 - 2, 60⟩ := by decide +kernel

/-- **C16.** `normalize` terminates for every non-zero mantissa, sets the top bit
and keeps the value. -/
theorem C16_normalize (T : FloatType) (w : DiyFp) (h0 : w.f ≠ 0) (h1 : w.f < 2 ^ T.W) :
    ∃ r, w.normalize T.W = .ok r ∧ 2 ^ (T.W - 1) ≤ r.f ∧ r.f < 2 ^ T.W ∧
      (r.f : ℚ) * 2 ^ r.e = w.f * 2 ^ w.e := by
  obtain ⟨j, -, h2, h3, h4⟩ := normalize_ok (W_pos T) w h0 h1
  refine ⟨_, h2, h3, h4, ?_⟩
  dsimp only
  rw [zpow_sub₀ (by norm_num)]
  push_cast
  rw [zpow_natCast]
  field_simp

example : (DiyFp.normalize 32 ⟨5, 0⟩) = .ok ⟨5 * 2 ^ 29, -29⟩ := by decide

/-- **C17.** A value goes into the extended representation exactly. -/
theorem C17_ofFloat_exact (T : FloatType) (bits : Nat) (hf : IsFinite T bits) :
    ((DiyFp.ofFloat T bits).f : ℚ) * 2 ^ (DiyFp.ofFloat T bits).e = |value T bits| := by
  have hu := emin_pos T
  rw [ofFloat_eq T bits hf.1]
  have h1 : |value T bits| = (N T (absPat T bits) : ℚ) * 2 ^ emin T := by
    have hp : 0 ≤ (N T (absPat T bits) : ℚ) * 2 ^ emin T := by positivity
    rcases value_cases T bits with h | h
    · rw [h, abs_of_nonneg hp]
    · rw [h, abs_neg, abs_of_nonneg hp]
  rw [h1, N_eq]
  unfold ulpN
  rw [zpow_add₀ (by norm_num), zpow_natCast]
  push_cast
  ring

example : IsFinite .double 0xC000CCCCCCCCCCCD ∧
    DiyFp.ofFloat .double 0xC000CCCCCCCCCCCD = ⟨0x10CCCCCCCCCCCD, -51⟩ ∧
    DiyFp.ofFloat .double 3 = ⟨3, -1074⟩ := ⟨⟨by decide, by decide⟩, by decide, by decide⟩

/-- **C17.** And it comes back unchanged (sign cleared), with status success and
flagged accurate. -/
theorem C17_roundtrip (T : FloatType) (bits : Nat) (hf : IsFinite T bits) (h0 : value T bits ≠ 0) :
    ∃ w, (DiyFp.ofFloat T bits).normalize T.W = .ok w ∧
      w.downsample T = .ok { value := bits % 2 ^ (T.W - 1), status := .success, isAccurate := true } := by
  rw [ofFloat_eq T bits hf.1]
  have ha := absPat_lt_posInf hf
  have ha0 : absPat T bits ≠ 0 := fun h => h0 (value_zero_iff.mpr h)
  change ∃ w : DiyFp, _ ∧ w.downsample T = Except.ok { value := absPat T bits, status := .success, isAccurate := true }
  generalize absPat T bits = a at *
  set x := a / 2 ^ (T.p - 1) - 1 with hx
  have hsl := sigN_lt T a
  have hs0 : sigN T a ≠ 0 := by
    intro h
    have : N T a = 0 := by rw [N_eq, h, Nat.zero_mul]
    rw [← N_zero T] at this
    exact ha0 (N_inj this)
  have hpW : T.p < T.W := by cases T <;> decide
  have hlt : sigN T a < 2 ^ T.W := lt_of_lt_of_le hsl (Nat.pow_le_pow_right (by norm_num) hpW.le)
  obtain ⟨j, hj, hn, hn1, hn2⟩ := normalize_ok (W_pos T) ⟨sigN T a, emin T + (x : Int)⟩ hs0 hlt
  refine ⟨_, hn, ?_⟩
  dsimp only at hn1 hn2 ⊢
  -- enough low zero bits
  have hjp : T.W - T.p ≤ j := by
    by_contra hc
    have h1 : sigN T a * 2 ^ j < 2 ^ T.p * 2 ^ j := Nat.mul_lt_mul_of_pos_right hsl (by positivity)
    rw [← pow_add] at h1
    have h2 : 2 ^ (T.p + j) ≤ 2 ^ (T.W - 1) := Nat.pow_le_pow_right (by norm_num) (by omega)
    omega
  have hxmax : (x : Int) ≤ T.maxExp - T.p - emin T := by
    have : a / 2 ^ (T.p - 1) < expMax T := by
      rw [Nat.div_lt_iff_lt_mul (by positivity)]; exact ha
    have h3 : ((expMax T : Nat) : Int) - 2 = T.maxExp - T.p - emin T := by cases T <;> decide
    have : 2 ≤ expMax T := by cases T <;> decide
    omega
  have hj0 : x ≠ 0 → j = T.W - T.p := by
    intro h
    have : 2 ^ (T.p - 1) ≤ sigN T a := by
      unfold sigN; rw [if_neg (by omega)]; omega
    by_contra hc
    have h1 : 2 ^ (T.p - 1) * 2 ^ j ≤ sigN T a * 2 ^ j := Nat.mul_le_mul_right _ this
    rw [← pow_add] at h1
    have h2 : 2 ^ T.W ≤ 2 ^ (T.p - 1 + j) := Nat.pow_le_pow_right (by norm_num) (by omega)
    omega
  obtain ⟨s, t, a0, hs, ht, hsW, hsW', ha0', hN, hul, -, hd⟩ :=
    downsample_ok T ⟨sigN T a * 2 ^ j, emin T + (x : Int) - j⟩ hn1 hn2
      (by dsimp only; omega)
      (by
        dsimp only
        by_cases hx0 : x = 0
        · have : emin T - ((T.W - T.p : Nat) : Int) ≤ T.maxExp - T.W := by cases T <;> decide
          omega
        · have := hj0 hx0; omega)
  dsimp only at hs ht hN hd
  have hsj : s ≤ j := by omega
  have hdvd : 2 ^ s ∣ sigN T a * 2 ^ j := (pow_dvd_pow 2 hsj).mul_left _
  have hmod : sigN T a * 2 ^ j % 2 ^ s = 0 := Nat.mod_eq_zero_of_dvd hdvd
  have hpos : 0 < 2 ^ (s - 1) := by positivity
  rw [hd, hmod]
  have hcond : ¬ (2 ^ (s - 1) < 0 ∨ 0 = 2 ^ (s - 1) ∧ sigN T a * 2 ^ j / 2 ^ s % 2 = 1) := by
    omega
  rw [if_neg hcond]
  have haa : a0 = a := by
    apply N_inj (T := T)
    rw [hN, N_eq]
    have h1 : sigN T a * 2 ^ j / 2 ^ s = sigN T a * 2 ^ (j - s) := by
      rw [show j = (j - s) + s by omega, pow_add, ← Nat.mul_assoc, Nat.mul_div_cancel _ (by positivity)]
      simp
    rw [h1, Nat.mul_assoc, ← pow_add]
    unfold ulpN
    rw [← hx]
    congr 2
    omega
  have hacc : decide (0 ≠ 2 ^ (s - 1)) = true := decide_eq_true (by omega)
  rw [haa, hacc]

/-- A subnormal and a negative normal number. -/
example : (IsFinite .float 0x00001234 ∧ value .float 0x00001234 ≠ 0) ∧
    (IsFinite .float 0xBDCCCCCD ∧ value .float 0xBDCCCCCD ≠ 0) ∧
    (0xBDCCCCCD % 2 ^ 31 = 0x3DCCCCCD) :=
  ⟨⟨⟨by decide, by decide⟩, by decide +kernel⟩, ⟨⟨by decide, by decide⟩, by decide +kernel⟩, by decide⟩

/-- **C18.** `++` adds exactly one unit of the last place, for every mantissa. -/
theorem C18_increment (T : FloatType) (w : DiyFp) (h : w.f < 2 ^ T.W) :
    ((w.inc T.W).f : ℚ) * 2 ^ (w.inc T.W).e = (w.f + 1) * 2 ^ w.e ∧ (w.inc T.W).f < 2 ^ T.W := by
  unfold DiyFp.inc
  split_ifs with h1
  · rw [Nat.mod_eq_of_lt (by omega)]
    push_cast
    exact ⟨rfl, by omega⟩
  · have hw : w.f = 2 ^ T.W - 1 := by omega
    have h3 : (w.f >>> 1 + 1) % 2 ^ T.W = 2 ^ (T.W - 1) := by
      rw [hw]; cases T <;> decide
    dsimp only
    rw [h3]
    have h4 : (w.f : ℚ) + 1 = 2 * 2 ^ (T.W - 1) := by
      have : w.f + 1 = 2 * 2 ^ (T.W - 1) := by rw [hw]; cases T <;> decide
      exact_mod_cast this
    refine ⟨?_, Nat.pow_lt_pow_right (by norm_num) (by cases T <;> decide)⟩
    rw [h4, zpow_add₀ (by norm_num)]
    push_cast
    ring

/-- The mantissa that has to be renormalized. -/
example : (⟨2 ^ 32 - 1, 5⟩ : DiyFp).inc 32 = ⟨2 ^ 31, 6⟩ ∧ (⟨6, 5⟩ : DiyFp).inc 32 = ⟨7, 5⟩ := by decide

/-- **C18.** `--` subtracts exactly one unit of the last place from every mantissa
above 1; a mantissa of 1 is halved instead. -/
theorem C18_decrement (T : FloatType) (w : DiyFp) (h : w.f < 2 ^ T.W) :
    (1 < w.f → ((w.dec T.W).f : ℚ) * 2 ^ (w.dec T.W).e = (w.f - 1) * 2 ^ w.e) ∧
    (w.f = 1 → ((w.dec T.W).f : ℚ) * 2 ^ (w.dec T.W).e = 2 ^ w.e / 2) := by
  unfold DiyFp.dec
  constructor
  · intro h1
    rw [if_pos h1]
    push_cast [Nat.cast_sub h1.le]
    rfl
  · intro h1
    rw [if_neg (by omega), h1]
    have h2 : ((1 <<< 1) % 2 ^ T.W + 2 ^ T.W - 1) % 2 ^ T.W = 1 := by cases T <;> decide
    dsimp only
    rw [h2, zpow_sub₀ (by norm_num)]
    simp

example : (⟨2 ^ 31, 6⟩ : DiyFp).dec 32 = ⟨2 ^ 31 - 1, 6⟩ ∧ (⟨2, 5⟩ : DiyFp).dec 32 = ⟨1, 5⟩ ∧
    (⟨1, 5⟩ : DiyFp).dec 32 = ⟨1, 4⟩ := by decide

/-- **C19.** `round_up` at bit `n`: adding its answer to `x / 2^n` gives the
nearest integer to `x / 2^n`, the even one on a tie; and exactly the ties are
flagged inaccurate. -/
theorem C19_round_up (W x n : Nat) (hn : 0 < n) (hnW : n ≤ W) (hx : x < 2 ^ W) :
    ∃ r, roundUp W x n = .ok r ∧
      (∀ q, q = x / 2 ^ n + (if r.value then 1 else 0) →
        (∀ q' : ℤ, |(x : ℚ) / 2 ^ n - q| ≤ |(x : ℚ) / 2 ^ n - q'|) ∧
        ((∃ q' : ℤ, q' ≠ q ∧ |(x : ℚ) / 2 ^ n - q| = |(x : ℚ) / 2 ^ n - q'|) → q % 2 = 0)) ∧
      (r.isAccurate = false ↔ ∃ q : ℕ, (x : ℚ) / 2 ^ n = q + 1 / 2) := by
  refine ⟨_, roundUp_eq hn hnW hx, ?_, ?_⟩
  · intro q hq
    dsimp only at hq
    have hpos : 0 < 2 ^ n := by positivity
    have h2 : 2 ^ n = 2 * 2 ^ (n - 1) := by rw [← pow_succ', Nat.sub_add_cancel hn]
    have hdm := Nat.div_add_mod x (2 ^ n)
    have hml := Nat.mod_lt x hpos
    set r := x % 2 ^ n with hr
    set d := x / 2 ^ n with hd
    set h := 2 ^ (n - 1) with hh
    have hxq : (x : ℚ) / 2 ^ n = d + r / (2 * h) := by
      have : (x : ℚ) = 2 ^ n * d + r := by exact_mod_cast hdm.symm
      rw [this]
      have h2' : (2 : ℚ) ^ n = 2 * h := by exact_mod_cast h2
      rw [h2']
      have : (h : ℚ) ≠ 0 := by rw [hh]; positivity
      field_simp
    have hhp : (0 : ℚ) < h := by rw [hh]; positivity
    -- distance to `q`
    have hdist : |(x : ℚ) / 2 ^ n - q| ≤ 1 / 2 ∧ (|(x : ℚ) / 2 ^ n - q| = 1 / 2 → q % 2 = 0) := by
      rw [hxq]
      by_cases hc : h < r ∨ r = h ∧ d % 2 = 1
      · simp only [hc, decide_true, if_true] at hq
        subst hq
        push_cast
        rw [show (d : ℚ) + r / (2 * h) - (d + 1) = -(1 - r / (2 * h)) by ring, abs_neg]
        have hr1 : (r : ℚ) / (2 * h) ≤ 1 := by
          rw [div_le_one (by positivity)]; exact_mod_cast (by omega : r ≤ 2 * h)
        rw [abs_of_nonneg (by linarith)]
        have hr2 : (1 : ℚ) / 2 ≤ r / (2 * h) := by
          rw [le_div_iff₀ (by positivity)]
          have : (h : ℚ) ≤ r := by exact_mod_cast (by omega : h ≤ r)
          linarith
        refine ⟨by linarith, ?_⟩
        intro he
        have : (r : ℚ) / (2 * h) = 1 / 2 := by linarith
        rw [div_eq_iff (by positivity)] at this
        have : (r : ℚ) = h := by linarith
        have : r = h := by exact_mod_cast this
        omega
      · simp only [hc, decide_false, Bool.false_eq_true, if_false, add_zero] at hq
        rw [hq, show (d : ℚ) + r / (2 * h) - d = r / (2 * h) by ring]
        rw [abs_of_nonneg (by positivity)]
        have hrh : r ≤ h := by omega
        refine ⟨?_, ?_⟩
        · rw [div_le_iff₀ (by positivity)]
          have : (r : ℚ) ≤ h := by exact_mod_cast hrh
          linarith
        · intro he
          rw [div_eq_iff (by positivity)] at he
          have : (r : ℚ) = h := by linarith
          have : r = h := by exact_mod_cast this
          omega
    have hother : ∀ q' : ℤ, q' ≠ q → 1 - |(x : ℚ) / 2 ^ n - q| ≤ |(x : ℚ) / 2 ^ n - q'| := by
      intro q' hne
      have h1 : (1 : ℚ) ≤ |(q : ℚ) - q'| := by
        have : (1 : ℤ) ≤ |(q : ℤ) - q'| := Int.one_le_abs (by omega)
        exact_mod_cast this
      have h2 := abs_sub_le (q : ℚ) ((x : ℚ) / 2 ^ n) q'
      rw [abs_sub_comm (q : ℚ) ((x : ℚ) / 2 ^ n)] at h2
      linarith
    constructor
    · intro q'
      by_cases hne : q' = q
      · rw [hne]; simp
      · have := hother q' hne; linarith [hdist.1]
    · rintro ⟨q', hne, he⟩
      have := hother q' hne
      exact hdist.2 (by linarith [hdist.1])
  · dsimp only
    have h2 : 2 ^ n = 2 * 2 ^ (n - 1) := by rw [← pow_succ', Nat.sub_add_cancel hn]
    have hdm := Nat.div_add_mod x (2 ^ n)
    simp only [ne_eq, decide_not, Bool.not_eq_false', decide_eq_true_eq]
    have hp : (0 : ℚ) < 2 ^ n := by positivity
    have h2' : (2 : ℚ) ^ n = 2 * 2 ^ (n - 1) := by exact_mod_cast h2
    constructor
    · intro h
      refine ⟨x / 2 ^ n, ?_⟩
      rw [div_eq_iff hp.ne']
      have : (x : ℚ) = 2 ^ n * (x / 2 ^ n : ℕ) + 2 ^ (n - 1) := by
        rw [h] at hdm; exact_mod_cast hdm.symm
      rw [this, h2']; ring
    · rintro ⟨q, hq⟩
      rw [div_eq_iff hp.ne'] at hq
      have : (x : ℚ) = ((q * 2 ^ n + 2 ^ (n - 1) : ℕ) : ℚ) := by
        rw [hq, h2']; push_cast; rw [h2']; ring
      have : x = q * 2 ^ n + 2 ^ (n - 1) := by exact_mod_cast this
      have hp1 : 0 < 2 ^ (n - 1) := by positivity
      rw [this, Nat.mul_comm, Nat.mul_add_mod, Nat.mod_eq_of_lt (by omega)]

example : roundUp 8 0x98 4 = .ok { value := true, isAccurate := false } ∧
    roundUp 8 0x88 4 = .ok { value := false, isAccurate := false } ∧
    roundUp 8 0x89 4 = .ok { value := true, isAccurate := true } := by decide

end Floaxie
