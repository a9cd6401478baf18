import Verif.Proof.OneDigit
import Verif.Prop.Ask

/-! # Reading the numbers of one decimal digit -/

namespace Floaxie

open FloatType Spec

/-- Binary digits by which `d` is shifted to fill the mantissa. -/
def oneShift (T : FloatType) (d : Nat) : Nat := T.W - 1 - (if d < 2 then 0 else if d < 4 then 1 else if d < 8 then 2 else 3)

/-- Everything to be checked of the way `d * 10^j` is read. -/
def readCheck (T : FloatType) (d : Nat) (j : Int) : Bool :=
  let (V, D) := fracND d j
  let X := V * 2 ^ (-emin T).toNat
  decide (X < D) || decide ((N T (posInf T - 1) + N T (posInf T)) * D ≤ 2 * X) ||
    (decide (T.powLo ≤ j) && decide (j ≤ T.powHi) &&
      match scaleStepP fastPower T { f := d * 2 ^ oneShift T d, e := -(oneShift T d : Int) } j with
      | .ok w =>
        match w.downsample T with
        | .ok v => v.status == .success &&
            (if v.isAccurate then !(oneDigitAsked T).contains (d, j) && identNat T v.value V D
              else (oneDigitAsked T).contains (d, j))
        | .error _ => false
      | .error _ => false)

/-- All digits for the exponent `j = i - 324`. -/
def readCheckAll (T : FloatType) (i : Nat) : Bool :=
  (List.range' 1 9).all fun d => readCheck T d ((i : Int) - 324)

set_option Elab.async false
theorem read_float : (List.range' 279 84).all (readCheckAll .float) = true := by decide +kernel
theorem read_double0 : (List.range' 0 64).all (readCheckAll .double) = true := by decide +kernel
theorem read_double1 : (List.range' 64 64).all (readCheckAll .double) = true := by decide +kernel
theorem read_double2 : (List.range' 128 64).all (readCheckAll .double) = true := by decide +kernel
theorem read_double3 : (List.range' 192 64).all (readCheckAll .double) = true := by decide +kernel
theorem read_double4 : (List.range' 256 64).all (readCheckAll .double) = true := by decide +kernel
theorem read_double5 : (List.range' 320 64).all (readCheckAll .double) = true := by decide +kernel
theorem read_double6 : (List.range' 384 64).all (readCheckAll .double) = true := by decide +kernel
theorem read_double7 : (List.range' 448 64).all (readCheckAll .double) = true := by decide +kernel
theorem read_double8 : (List.range' 512 64).all (readCheckAll .double) = true := by decide +kernel
theorem read_double9 : (List.range' 576 64).all (readCheckAll .double) = true := by decide +kernel

theorem read_double (k i : Nat) (hk : k < 10) (h1 : 64 * k ≤ i) (h2 : i < 64 * k + 64) : readCheckAll .double i = true := by
  interval_cases k
  · exact List.all_eq_true.mp read_double0 i (List.mem_range'_1.mpr ⟨h1, h2⟩)
  · exact List.all_eq_true.mp read_double1 i (List.mem_range'_1.mpr ⟨h1, h2⟩)
  · exact List.all_eq_true.mp read_double2 i (List.mem_range'_1.mpr ⟨h1, h2⟩)
  · exact List.all_eq_true.mp read_double3 i (List.mem_range'_1.mpr ⟨h1, h2⟩)
  · exact List.all_eq_true.mp read_double4 i (List.mem_range'_1.mpr ⟨h1, h2⟩)
  · exact List.all_eq_true.mp read_double5 i (List.mem_range'_1.mpr ⟨h1, h2⟩)
  · exact List.all_eq_true.mp read_double6 i (List.mem_range'_1.mpr ⟨h1, h2⟩)
  · exact List.all_eq_true.mp read_double7 i (List.mem_range'_1.mpr ⟨h1, h2⟩)
  · exact List.all_eq_true.mp read_double8 i (List.mem_range'_1.mpr ⟨h1, h2⟩)
  · exact List.all_eq_true.mp read_double9 i (List.mem_range'_1.mpr ⟨h1, h2⟩)

/-- The exponents for which there is something to be read. -/
def readLo : FloatType → Int
  | .float => -45
  | .double => -324

def readHi : FloatType → Int
  | .float => 39
  | .double => 309

theorem read_all (T : FloatType) (d : Nat) (j : Int) (hd : 1 ≤ d) (hd9 : d ≤ 9) (h1 : readLo T ≤ j) (h2 : j < readHi T) :
    readCheck T d j = true := by
  have key : readCheckAll T (j + 324).toNat = true := by
    cases T with
    | float =>
      have h1 : (-45 : Int) ≤ j := h1
      have h2 : j < 39 := h2
      exact List.all_eq_true.mp read_float _ (List.mem_range'_1.mpr ⟨by omega, by omega⟩)
    | double =>
      have h1 : (-324 : Int) ≤ j := h1
      have h2 : j < 309 := h2
      exact read_double ((j + 324).toNat / 64) _ (by omega) (by omega) (by omega)
  have h3 : (-324 : Int) ≤ j := le_trans (by cases T <;> decide) h1
  unfold readCheckAll at key
  have := List.all_eq_true.mp key d (List.mem_range'_1.mpr ⟨hd, by omega⟩)
  rwa [show ((j + 324).toNat : Int) - 324 = j by omega] at this

theorem read_range {T : FloatType} {d : Nat} {j : Int} (hd : 1 ≤ d) (hd9 : d ≤ 9)
    (h1 : (2 : ℚ) ^ emin T ≤ d * 10 ^ j) (h2 : (d * 10 ^ j : ℚ) < overflowThreshold T) :
    readLo T ≤ j ∧ j < readHi T := by
  have hx : (0 : ℚ) < 10 ^ j := by positivity
  have hd' : (1 : ℚ) ≤ d := by exact_mod_cast hd
  have hd9' : (d : ℚ) ≤ 9 := by exact_mod_cast hd9
  constructor
  · by_contra hc
    push Not at hc
    have g1 : (10 : ℚ) ^ j ≤ 10 ^ (readLo T - 1) := zpow_le_zpow_right₀ (by norm_num) (by omega)
    have g2 : (9 : ℚ) * 10 ^ (readLo T - 1) < 2 ^ emin T := by
      cases T <;> decide +kernel
    nlinarith
  · by_contra hc
    push Not at hc
    have g1 : (10 : ℚ) ^ readHi T ≤ 10 ^ j := zpow_le_zpow_right₀ (by norm_num) hc
    have g2 : overflowThreshold T < (10 : ℚ) ^ readHi T := by cases T <;> decide +kernel
    nlinarith

/-- `krosh` on a number of one digit in the range of the type. -/
theorem krosh_oneDigit {T : FloatType} {mem : List Nat} {str : Nat} {n : Numeral} (h : NumeralAt mem str n) {d : Nat} {j : Int}
    (hd : 1 ≤ d) (hd9 : d ≤ 9) (hn : n.absValue = d * 10 ^ j) (h1 : 2 ^ emin T ≤ n.absValue)
    (h2 : n.absValue < overflowThreshold T) :
    ∃ a acc, krosh T mem str = .ok ⟨if n.isNeg then neg T a else a, str + n.text.length, .success, acc⟩ ∧
      (acc = false ↔ (d, j) ∈ oneDigitAsked T) ∧ (acc = true → a < posInf T ∧ Identifies T n.absValue a) := by
  have hx0 : n.absValue ≠ 0 := by
    have : (0 : ℚ) < 2 ^ emin T := by positivity
    linarith
  obtain ⟨w, Y, K, w1, w2, w3, w4, w5, w6, w7, w8, w9, w10, w12, w11⟩ := krosh_num (T := T) h hx0
  have hd10 : d < 10 ^ T.digits10 := lt_of_le_of_lt hd9 (by cases T <;> decide)
  have hshort : Short T.digits10 n.absValue := ⟨d, j, hd10, hn⟩
  obtain ⟨P, hP, hP10⟩ := w12 hshort
  obtain ⟨e1, e2⟩ := last_place_unique hP10 (show ¬ 10 ∣ d by omega) (by rw [← hP, ← w5, hn])
  subst e2
  rw [e1] at hP
  have hY := w9 hshort
  rw [hP] at hY
  -- the mantissa is determined
  have hs1 : 2 ^ (T.W - 1) ≤ d * 2 ^ oneShift T d := by
    interval_cases d <;> cases T <;> decide
  have hs2 : d * 2 ^ oneShift T d < 2 ^ T.W := by
    interval_cases d <;> cases T <;> decide
  have hw : w = { f := d * 2 ^ oneShift T d, e := -(oneShift T d : Int) } := by
    have q1 : (d * 2 ^ oneShift T d : ℕ) * (2 : ℚ) ^ (-(oneShift T d : Int)) = w.f * 2 ^ w.e := by
      rw [← hY]
      push_cast
      rw [zpow_neg, zpow_natCast, mul_assoc, mul_inv_cancel₀ (by positivity), mul_one]
    obtain ⟨f, e⟩ := w
    dsimp only at *
    generalize d * 2 ^ oneShift T d = f' at *
    generalize -(oneShift T d : Int) = e' at *
    have hB : (2 : ℚ) ^ T.W = 2 * 2 ^ (T.W - 1) := by cases T <;> norm_num [FloatType.W]
    have c1 : (2 : ℚ) ^ (T.W - 1) ≤ f := by exact_mod_cast w1
    have c2 : (f : ℚ) < 2 ^ T.W := by exact_mod_cast w2
    have c3 : (2 : ℚ) ^ (T.W - 1) ≤ f' := by exact_mod_cast hs1
    have c4 : (f' : ℚ) < 2 ^ T.W := by exact_mod_cast hs2
    have key : ∀ {u v : ℚ} {a b : Int}, 2 ^ (T.W - 1) ≤ u → v < 2 ^ T.W → u * 2 ^ a = v * 2 ^ b → ¬ b < a := by
      intro u v a b k1 k2 k3 k4
      have k5 : (2 : ℚ) * 2 ^ b ≤ 2 ^ a := by
        rw [← zpow_one_add₀ (by norm_num)]; exact zpow_le_zpow_right₀ (by norm_num) (by omega)
      have k6 : (0 : ℚ) < 2 ^ b := by positivity
      have k7 : (0 : ℚ) < 2 ^ (T.W - 1) := by positivity
      nlinarith
    have he : e = e' := by
      have := key c1 c4 q1.symm
      have := key c3 c2 q1
      omega
    subst he
    have : (f' : ℚ) = f := mul_right_cancel₀ (by positivity) q1
    have : f' = f := by exact_mod_cast this
    rw [this]
  rw [hn] at h1 h2
  obtain ⟨r1, r2⟩ := read_range hd hd9 h1 h2
  have hk := read_all T d K hd hd9 r1 r2
  have hD : 0 < (fracND d K).2 := by unfold fracND; positivity
  unfold readCheck at hk
  have hval := fracND_val d K
  set V := (fracND d K).1 with hV
  set D := (fracND d K).2 with hDD
  rw [show fracND d K = (V, D) from rfl] at hk
  dsimp only at hk
  rw [scaleStepP_eq] at hk
  have hu := emin_pos T
  have hD' : (0 : ℚ) < D := by exact_mod_cast hD
  have hru := ratio_units T V D
  simp only [Bool.or_eq_true, Bool.and_eq_true, decide_eq_true_eq] at hk
  rcases hk with (hk | hk) | ⟨⟨k1, k2⟩, k3⟩
  · exfalso
    rw [hval, hru] at h1
    have : ((V * 2 ^ (-emin T).toNat : ℕ) : ℚ) / D < 1 := by rw [div_lt_one hD']; exact_mod_cast hk
    nlinarith
  · exfalso
    rw [hval, hru] at h2
    have h4 := overflowThreshold_eq T
    have h3 : ((N T (posInf T - 1) : ℚ) + N T (posInf T)) ≤ 2 * (((V * 2 ^ (-emin T).toNat : ℕ) : ℚ) / D) := by
      rw [mul_div_assoc', le_div_iff₀ hD']; exact_mod_cast hk
    nlinarith
  · rw [← hw] at k3
    cases hsc : scaleStep T w K with
    | error e => rw [hsc] at k3; exact absurd k3 (by simp)
    | ok w' =>
      rw [hsc] at k3
      dsimp only at k3
      cases hdn : w'.downsample T with
      | error e => rw [hdn] at k3; exact absurd k3 (by simp)
      | ok v =>
        rw [hdn] at k3
        dsimp only at k3
        rw [Bool.and_eq_true, beq_iff_eq] at k3
        obtain ⟨k4, k5⟩ := k3
        refine ⟨v.value, v.isAccurate, ?_, ?_, ?_⟩
        · rw [w11]
          unfold kroshTail
          rw [if_neg (by tauto), hsc, ok_bind, hdn, ok_bind, k4]
          cases n.isNeg <;> simp [negBits_eq] <;> rfl
        · cases hacc : v.isAccurate
          · rw [hacc] at k5
            simp only [Bool.false_eq_true, if_false, List.contains_iff_mem] at k5
            simp [k5]
          · rw [hacc] at k5
            simp only [if_true, Bool.and_eq_true, Bool.not_eq_true', List.contains_eq_mem, decide_eq_false_iff_not] at k5
            simp [k5.1]
        · intro hacc
          rw [if_pos hacc, Bool.and_eq_true] at k5
          have k6 := k5.2
          simp only [identNat, Bool.and_eq_true, decide_eq_true_eq] at k6
          refine ⟨k6.1.1, ?_⟩
          rw [hn, hval]
          exact identifies_ratio k6.1.1 hD k6.1.2 k6.2

end Floaxie
