import Verif.Proof.Pow2
import Verif.Prop.RoundTrip
import Verif.Prop.Shortest
import Verif.Proof.RoundFun
import Verif.Spec.OneDigit

/-! # Printing the numbers of one decimal digit -/

namespace Floaxie

open FloatType Spec

/-- Position of the highest bit, by bisection (evaluates faster in the kernel
than `Nat.log2`; nothing is proved about it). -/
def topBit (t : Nat) : List Nat → Nat → Nat
  | [], acc => acc
  | k :: ks, acc => if t >>> (acc + k) = 0 then topBit t ks acc else topBit t ks (acc + k)

/-- The pattern nearest to `V / D`, in the range of normal numbers. -/
def nearPat (T : FloatType) (V D : Nat) : Nat :=
  let X := V * 2 ^ (-emin T).toNat
  let t := X / D
  let sh := topBit t [2048, 1024, 512, 256, 128, 64, 32, 16, 8, 4, 2, 1] 0 + 1 - T.p
  let sig := t >>> sh
  let sig := if (2 * sig + 1) * 2 ^ sh * D < 2 * X then sig + 1 else sig
  sh * 2 ^ (T.p - 1) + sig

/-- `V / D` lies safely inside the rounding interval of `a`. -/
def safeNat (T : FloatType) (a V D : Nat) : Bool :=
  let X := V * 2 ^ (-emin T).toNat
  let L := N T (a - 1)
  let M := N T a
  let H := N T (a + 1)
  decide ((L + M) * D * margin T + 2 * (H - M) * D ≤ 2 * X * margin T) &&
    decide (2 * X * margin T + 2 * (H - M) * D ≤ (M + H) * D * margin T)

/-- `V / D` identifies `a`. -/
def identNat (T : FloatType) (a V D : Nat) : Bool :=
  let X := V * 2 ^ (-emin T).toNat
  decide (a < posInf T) && decide ((N T (a - 1) + N T a) * D < 2 * X) &&
    decide (2 * X < (N T a + N T (a + 1)) * D)

/-- `V / D` is the middle of `a` and the next pattern. -/
def tieNat (T : FloatType) (a V D : Nat) : Bool :=
  decide (a + 1 < posInf T) && decide (2 ^ (T.p - 1) < a) &&
    decide (2 * (V * 2 ^ (-emin T).toNat) = (N T a + N T (a + 1)) * D)

/-- The digits made for `a` are those of `d * 10^j`. -/
def sameNat (T : FloatType) (a d : Nat) (j : Int) : Option Bool :=
  match grisu2P fastPower T a (List.replicate 17 0) 0 with
  | .ok (buf, len, K) => some (charsVal (buf.take len) * 10 ^ (K + 400).toNat == d * 10 ^ (j + 400).toNat)
  | _ => none

/-- Numerator and denominator of `d * 10^j`. -/
def fracND (d : Nat) (j : Int) : Nat × Nat := (d * 10 ^ j.toNat, 10 ^ (-j).toNat)

/-- Everything to be checked of `d * 10^j`. -/
def oneCheck (T : FloatType) (d : Nat) (j : Int) : Bool :=
  let (V, D) := fracND d j
  let X := V * 2 ^ (-emin T).toNat
  decide (X < 2 ^ (T.p - 1) * D) || decide ((N T (posInf T - 1) + N T (posInf T)) * D ≤ 2 * X) ||
    (let a := nearPat T V D
     (identNat T a V D &&
      (decide (a ≤ 2 ^ (T.p - 1)) ||
        (if (oneDigitLong T).contains (d, j) then sameNat T a d j == some false
         else safeNat T a V D || sameNat T a d j == some true))) ||
     (tieNat T a V D && (oneDigitLong T).contains (d, j) && sameNat T a d j == some false &&
      sameNat T (a + 1) d j == some false))

/-- All digits for the exponent `j = i - 310`. -/
def oneCheckAll (T : FloatType) (i : Nat) : Bool :=
  (List.range' 1 9).all fun d => oneCheck T d ((i : Int) - 310)

set_option Elab.async false
theorem one_float : (List.range' 272 77).all (oneCheckAll .float) = true := by decide +kernel
theorem one_double0 : (List.range' 0 62).all (oneCheckAll .double) = true := by decide +kernel
theorem one_double1 : (List.range' 62 62).all (oneCheckAll .double) = true := by decide +kernel
theorem one_double2 : (List.range' 124 62).all (oneCheckAll .double) = true := by decide +kernel
theorem one_double3 : (List.range' 186 62).all (oneCheckAll .double) = true := by decide +kernel
theorem one_double4 : (List.range' 248 62).all (oneCheckAll .double) = true := by decide +kernel
theorem one_double5 : (List.range' 310 62).all (oneCheckAll .double) = true := by decide +kernel
theorem one_double6 : (List.range' 372 62).all (oneCheckAll .double) = true := by decide +kernel
theorem one_double7 : (List.range' 434 62).all (oneCheckAll .double) = true := by decide +kernel
theorem one_double8 : (List.range' 496 62).all (oneCheckAll .double) = true := by decide +kernel
theorem one_double9 : (List.range' 558 62).all (oneCheckAll .double) = true := by decide +kernel

theorem one_double (k i : Nat) (hk : k < 10) (h1 : 62 * k ≤ i) (h2 : i < 62 * k + 62) : oneCheckAll .double i = true := by
  interval_cases k
  · exact List.all_eq_true.mp one_double0 i (List.mem_range'_1.mpr ⟨h1, h2⟩)
  · exact List.all_eq_true.mp one_double1 i (List.mem_range'_1.mpr ⟨h1, h2⟩)
  · exact List.all_eq_true.mp one_double2 i (List.mem_range'_1.mpr ⟨h1, h2⟩)
  · exact List.all_eq_true.mp one_double3 i (List.mem_range'_1.mpr ⟨h1, h2⟩)
  · exact List.all_eq_true.mp one_double4 i (List.mem_range'_1.mpr ⟨h1, h2⟩)
  · exact List.all_eq_true.mp one_double5 i (List.mem_range'_1.mpr ⟨h1, h2⟩)
  · exact List.all_eq_true.mp one_double6 i (List.mem_range'_1.mpr ⟨h1, h2⟩)
  · exact List.all_eq_true.mp one_double7 i (List.mem_range'_1.mpr ⟨h1, h2⟩)
  · exact List.all_eq_true.mp one_double8 i (List.mem_range'_1.mpr ⟨h1, h2⟩)
  · exact List.all_eq_true.mp one_double9 i (List.mem_range'_1.mpr ⟨h1, h2⟩)

/-- The exponents that need to be looked at. -/
def oneLo : FloatType → Int
  | .float => -38
  | .double => -310

def oneHi : FloatType → Int
  | .float => 39
  | .double => 310

theorem one_all (T : FloatType) (d : Nat) (j : Int) (hd : 1 ≤ d) (hd9 : d ≤ 9) (h1 : oneLo T ≤ j) (h2 : j < oneHi T) :
    oneCheck T d j = true := by
  have key : oneCheckAll T (j + 310).toNat = true := by
    cases T with
    | float =>
      have h1 : (-38 : Int) ≤ j := h1
      have h2 : j < 39 := h2
      exact List.all_eq_true.mp one_float _ (List.mem_range'_1.mpr ⟨by omega, by omega⟩)
    | double =>
      have h1 : (-310 : Int) ≤ j := h1
      have h2 : j < 310 := h2
      exact one_double ((j + 310).toNat / 62) _ (by omega) (by omega) (by omega)
  have h3 : (-310 : Int) ≤ j := le_trans (by cases T <;> decide) h1
  unfold oneCheckAll at key
  have := List.all_eq_true.mp key d (List.mem_range'_1.mpr ⟨hd, by omega⟩)
  rwa [show ((j + 310).toNat : Int) - 310 = j by omega] at this

theorem one_range {T : FloatType} {d : Nat} {j : Int} (hd : 1 ≤ d) (hd9 : d ≤ 9)
    (h1 : (2 : ℚ) ^ (T.minExp - 1) ≤ d * 10 ^ j) (h2 : (d * 10 ^ j : ℚ) < 2 ^ T.maxExp) :
    oneLo T ≤ j ∧ j < oneHi T := by
  have hx : (0 : ℚ) < 10 ^ j := by positivity
  have hd' : (1 : ℚ) ≤ d := by exact_mod_cast hd
  have hd9' : (d : ℚ) ≤ 9 := by exact_mod_cast hd9
  constructor
  · by_contra hc
    push Not at hc
    have g1 : (10 : ℚ) ^ j ≤ 10 ^ (oneLo T - 1) := zpow_le_zpow_right₀ (by norm_num) (by omega)
    have g2 : (d * 10 ^ j : ℚ) < 10 * 10 ^ (oneLo T - 1) := by nlinarith
    rw [← zpow_one_add₀ (by norm_num), show 1 + (oneLo T - 1) = oneLo T by ring] at g2
    have g3 : (10 : ℚ) ^ oneLo T ≤ 2 ^ (T.minExp - 1) := by
      cases T with
      | float =>
        rw [show oneLo .float = -((38 : ℕ) : ℤ) from rfl, show FloatType.float.minExp - 1 = -((126 : ℕ) : ℤ) from rfl,
          zpow_neg, zpow_neg, zpow_natCast, zpow_natCast]
        exact inv_anti₀ (by positivity) (by exact_mod_cast (by decide +kernel : (2 : ℕ) ^ 126 ≤ 10 ^ 38))
      | double =>
        rw [show oneLo .double = -((310 : ℕ) : ℤ) from rfl, show FloatType.double.minExp - 1 = -((1022 : ℕ) : ℤ) from rfl,
          zpow_neg, zpow_neg, zpow_natCast, zpow_natCast]
        exact inv_anti₀ (by positivity) (by exact_mod_cast (by decide +kernel : (2 : ℕ) ^ 1022 ≤ 10 ^ 310))
    linarith
  · by_contra hc
    push Not at hc
    have g1 : (10 : ℚ) ^ oneHi T ≤ 10 ^ j := zpow_le_zpow_right₀ (by norm_num) (by omega)
    have g3 : (2 : ℚ) ^ T.maxExp ≤ 10 ^ oneHi T := by
      cases T with
      | float =>
        rw [show oneHi .float = ((39 : ℕ) : ℤ) from rfl, show FloatType.float.maxExp = ((128 : ℕ) : ℤ) from rfl,
          zpow_natCast, zpow_natCast]
        exact_mod_cast (by decide +kernel : (2 : ℕ) ^ 128 ≤ 10 ^ 39)
      | double =>
        rw [show oneHi .double = ((310 : ℕ) : ℤ) from rfl, show FloatType.double.maxExp = ((1024 : ℕ) : ℤ) from rfl,
          zpow_natCast, zpow_natCast]
        exact_mod_cast (by decide +kernel : (2 : ℕ) ^ 1024 ≤ 10 ^ 310)
    nlinarith

/-- `V / D` in units of `2^emin`. -/
theorem ratio_units (T : FloatType) (V D : Nat) :
    (V / D : ℚ) = ((V * 2 ^ (-emin T).toNat : ℕ) : ℚ) / D * 2 ^ emin T := by
  push_cast
  rw [div_mul_eq_mul_div, mul_assoc, ← zpow_natCast, ← zpow_add₀ (by norm_num),
    show (((-emin T).toNat : ℕ) : ℤ) + emin T = 0 by cases T <;> decide]
  simp

theorem fracND_val (d : Nat) (j : Int) : (d * 10 ^ j : ℚ) = ((fracND d j).1 : ℚ) / ((fracND d j).2 : ℚ) := by
  unfold fracND
  rcases le_or_gt 0 j with h | h
  · obtain ⟨k, rfl⟩ := Int.eq_ofNat_of_zero_le h
    simp
  · obtain ⟨k, hk⟩ : ∃ k : Nat, j = -(k : Int) := ⟨(-j).toNat, by omega⟩
    subst hk
    simp [zpow_neg, div_eq_mul_inv]

/-- The pattern a number rounds to is nearest among the neighbours. -/
theorem rounds_near {T : FloatType} {c : Nat} {X : ℚ} (hX : 0 ≤ X) (hc : c < posInf T) (hr : RoundsTo T (X * 2 ^ emin T) c) (e : Nat)
    (he : e < posInf T) : |X - N T c| ≤ |X - N T e| := by
  have hu := emin_pos T
  have h := roundsTo_le hr (isFinite_of_lt he)
  rw [value_of_lt hc, value_of_lt he, ← sub_mul, ← sub_mul, abs_mul, abs_mul, abs_of_pos hu] at h
  exact le_of_mul_le_mul_right h hu

/-- What the check says of the pattern `c` nearest to `d * 10^j`. -/
theorem one_key {T : FloatType} {d c : Nat} {j : Int} (hk : oneCheck T d j = true) (hc : c < posInf T)
    (hn : 2 ^ (T.p - 1) < c) (hr : RoundsTo T (d * 10 ^ j) c) :
    ((d, j) ∉ oneDigitLong T → SafelyInside T c (d * 10 ^ j) ∨ sameNat T c d j = some true) ∧
    ((d, j) ∈ oneDigitLong T → sameNat T c d j = some false) := by
  have hD : 0 < (fracND d j).2 := by unfold fracND; positivity
  unfold oneCheck at hk
  have hval := fracND_val d j
  set V := (fracND d j).1 with hV
  set D := (fracND d j).2 with hDD
  rw [show fracND d j = (V, D) from rfl] at hk
  dsimp only at hk
  have hu := emin_pos T
  have hD' : (0 : ℚ) < D := by exact_mod_cast hD
  have hru := ratio_units T V D
  set X := V * 2 ^ (-emin T).toNat
  have hr' : RoundsTo T ((X : ℚ) / D * 2 ^ emin T) c := by rw [← hru, ← hval]; exact hr
  have hX0 : (0 : ℚ) ≤ (X : ℚ) / D := by positivity
  have near := rounds_near hX0 hc hr'
  simp only [Bool.or_eq_true, decide_eq_true_eq] at hk
  rcases hk with (hk | hk) | hk
  · -- below the normal numbers
    exfalso
    have h1 := near (c - 1) (by omega)
    have h2 : (X : ℚ) / D < 2 ^ (T.p - 1) := by
      rw [div_lt_iff₀ hD']; exact_mod_cast hk
    have h3 : (2 : ℚ) ^ (T.p - 1) ≤ N T (c - 1) := by
      have e1 : N T (2 ^ (T.p - 1)) = 2 ^ (T.p - 1) := by cases T <;> decide
      have := N_le (T := T) (show 2 ^ (T.p - 1) ≤ c - 1 by omega)
      rw [e1] at this; exact_mod_cast this
    have h4 : (N T (c - 1) : ℚ) < N T c := by exact_mod_cast N_lt (T := T) (show c - 1 < c by have := Nat.two_pow_pos (T.p - 1); omega)
    rw [abs_of_nonpos (by linarith), abs_of_nonpos (by linarith)] at h1
    linarith
  · exfalso
    have h1 := hr'.2.1
    have h2 := overflowThreshold_eq T
    rw [abs_of_nonneg (by positivity)] at h1
    have h3 : ((N T (posInf T - 1) : ℚ) + N T (posInf T)) ≤ 2 * ((X : ℚ) / D) := by
      rw [mul_div_assoc', le_div_iff₀ hD']; exact_mod_cast hk
    have := mul_le_mul_of_nonneg_right h3 hu.le
    linarith
  · generalize nearPat T V D = a at hk
    rcases hk with hk | hk
    · rw [Bool.and_eq_true] at hk
      obtain ⟨k1, k2⟩ := hk
      simp only [identNat, Bool.and_eq_true, decide_eq_true_eq] at k1
      obtain ⟨⟨k1a, k1b⟩, k1c⟩ := k1
      have hid : Identifies T ((X : ℚ) / D * 2 ^ emin T) a := by
        rw [← hru]; exact identifies_ratio k1a hD k1b k1c
      have hv := identifies_roundsTo_value hid hr'
      rw [value_of_lt hc, value_of_lt k1a] at hv
      have hac : c = a := N_inj (T := T) (by exact_mod_cast mul_right_cancel₀ hu.ne' hv)
      subst hac
      rw [Bool.or_eq_true, decide_eq_true_eq] at k2
      replace k2 := k2.resolve_left (by omega)
      constructor
      · intro hm
        rw [if_neg (by rw [List.contains_iff_mem]; exact hm), Bool.or_eq_true] at k2
        rcases k2 with k2 | k2
        · left
          simp only [safeNat, Bool.and_eq_true, decide_eq_true_eq] at k2
          obtain ⟨s1, s2⟩ := k2
          have hf := isFinite_of_lt hc
          obtain ⟨m1, m2⟩ := mids_eq hf
          have hstep : stepAbove T c = ((N T (c + 1) : ℚ) - N T c) * 2 ^ emin T := by
            have := stepAbove_eq hf
            rw [absPat_of_lt hc] at this
            rw [this, N_succ]
          rw [absPat_of_lt hc] at m1 m2
          have hm0 : (0 : ℚ) < margin T := by cases T <;> norm_num [margin]
          have hHM : N T c ≤ N T (c + 1) := N_le (by omega)
          have hcast : ((N T (c + 1) - N T c : ℕ) : ℚ) = (N T (c + 1) : ℚ) - N T c := by push_cast [hHM]; ring
          have t1 : ((N T (c - 1) + N T c : ℚ)) * D * margin T + 2 * ((N T (c + 1) : ℚ) - N T c) * D ≤ 2 * X * margin T := by
            rw [← hcast]; exact_mod_cast s1
          have t2 : 2 * (X : ℚ) * margin T + 2 * ((N T (c + 1) : ℚ) - N T c) * D ≤ (N T c + N T (c + 1)) * D * margin T := by
            rw [← hcast]; exact_mod_cast s2
          unfold SafelyInside
          rw [hval, hru, m1, m2, hstep]
          generalize (N T (c - 1) : ℚ) = L at *
          generalize (N T c : ℚ) = M at *
          generalize (N T (c + 1) : ℚ) = H at *
          generalize (margin T : ℚ) = m at *
          generalize (2 : ℚ) ^ emin T = u at *
          have r1 : (L + M) / 2 + (H - M) / m ≤ (X : ℚ) / D := by
            rw [div_add_div _ _ (by norm_num) hm0.ne', div_le_div_iff₀ (by positivity) hD']
            nlinarith
          have r2 : (X : ℚ) / D ≤ (M + H) / 2 - (H - M) / m := by
            rw [div_sub_div _ _ (by norm_num) hm0.ne', div_le_div_iff₀ hD' (by positivity)]
            nlinarith
          have q1 := mul_le_mul_of_nonneg_right r1 hu.le
          have q2 := mul_le_mul_of_nonneg_right r2 hu.le
          constructor
          · calc _ = ((L + M) / 2 + (H - M) / m) * u := by ring
              _ ≤ _ := q1
          · calc _ ≤ _ := q2
              _ = _ := by ring
        · right; exact eq_of_beq k2
      · intro hm
        rw [if_pos (by rw [List.contains_iff_mem]; exact hm)] at k2
        exact eq_of_beq k2
    · simp only [Bool.and_eq_true, tieNat, decide_eq_true_eq, List.contains_iff_mem, beq_iff_eq] at hk
      obtain ⟨⟨⟨⟨⟨k1, -⟩, k2⟩, k3⟩, k4⟩, k5⟩ := hk
      refine ⟨fun h => absurd k3 h, fun _ => ?_⟩
      have hXD : 2 * ((X : ℚ) / D) = N T a + N T (a + 1) := by
        rw [mul_div_assoc', div_eq_iff hD'.ne']
        exact_mod_cast k2
      have h1 := near a (by omega)
      have hlt : (N T a : ℚ) < N T (a + 1) := by exact_mod_cast N_lt (T := T) (by omega)
      rw [abs_of_nonneg (show (0 : ℚ) ≤ X / D - N T a by linarith), abs_le] at h1
      have h2 : N T a ≤ N T c := by
        have : (N T a : ℚ) ≤ N T c := by linarith
        exact_mod_cast this
      have h3 : N T c ≤ N T (a + 1) := by
        have : (N T c : ℚ) ≤ N T (a + 1) := by linarith
        exact_mod_cast this
      have h4 : a ≤ c := (N_strictMono T).le_iff_le.mp h2
      have h5 : c ≤ a + 1 := (N_strictMono T).le_iff_le.mp h3
      rcases (show c = a ∨ c = a + 1 by omega) with rfl | rfl
      · exact k4
      · exact k5

end Floaxie
