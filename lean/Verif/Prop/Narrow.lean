import Verif.Proof.Narrow
import Verif.Prop.RoundTrip
import Verif.Proof.RoundFun
import Mathlib.Tactic.LinearCombination

/-!
# Text printed for a `float`, read as a `double` (C61)
-/

namespace Floaxie
open Spec FloatType

/-- The pattern at or below a number. -/
theorem floor_pat {T : FloatType} {X : ℚ} (h0 : 0 ≤ X) (h1 : X < N T (posInf T)) :
    ∃ a, a < posInf T ∧ (N T a : ℚ) ≤ X ∧ X < N T (a + 1) := by
  have hex : ∃ a, X < N T a := ⟨_, h1⟩
  classical
  have h2 := Nat.find_spec hex
  have h3 : Nat.find hex ≠ 0 := by
    intro hz
    rw [hz, N_zero] at h2
    push_cast at h2; linarith
  have h4 : Nat.find hex ≤ posInf T := Nat.find_min' hex h1
  refine ⟨Nat.find hex - 1, by omega, ?_, by rwa [Nat.sub_add_cancel (by omega)]⟩
  exact not_lt.mp (Nat.find_min hex (m := Nat.find hex - 1) (by omega))

/-- In the normal range the unit in the last place is at most `2^(1-p)` of the value. -/
theorem ulp_le {T : FloatType} {a : Nat} (h : 2 ^ (T.p - 1) ≤ a) : ulpN T a * 2 ^ (T.p - 1) ≤ N T a := by
  have h1 : a / 2 ^ (T.p - 1) ≠ 0 := by
    have := Nat.div_pos h (by positivity)
    omega
  unfold ulpN N
  rw [if_neg h1, Nat.mul_comm]
  exact Nat.mul_le_mul_right _ (by omega)

/-- Relative error of rounding to nearest in the normal range. -/
theorem roundsTo_rel {T : FloatType} {x : ℚ} {b : Nat} (h : RoundsTo T x b) (hx : 2 ^ (T.minExp - 1) ≤ x) :
    |x - value T b| * 2 ^ T.p ≤ x := by
  have hu := emin_pos T
  have hx0 : 0 < x := lt_of_lt_of_le (by positivity) hx
  obtain ⟨X, hX⟩ : ∃ X, x = X * 2 ^ emin T := ⟨x / 2 ^ emin T, by field_simp⟩
  have hX0 : 0 < X := by
    rw [hX] at hx0
    exact pos_of_mul_pos_left hx0 hu.le
  have hth := overflowThreshold_eq T
  have hxt : x < overflowThreshold T := by
    have := h.2.1
    rwa [abs_of_pos hx0] at this
  have hX2 : 2 * X < N T (posInf T - 1) + N T (posInf T) := by
    apply lt_of_mul_lt_mul_right _ hu.le
    rw [← hth]; linarith
  have hle : (N T (posInf T - 1) : ℚ) ≤ N T (posInf T) := by exact_mod_cast N_le (T := T) (by omega)
  obtain ⟨a, ha, a1, a2⟩ := floor_pat hX0.le (show X < N T (posInf T) by linarith)
  have hap : 2 ^ (T.p - 1) ≤ a := by
    by_contra hc
    have h1 : N T (a + 1) ≤ N T (2 ^ (T.p - 1)) := N_le (by omega)
    have h2 : N T (2 ^ (T.p - 1)) = 2 ^ (T.p - 1) := by cases T <;> decide +kernel
    have h3 : (2 : ℚ) ^ (T.minExp - 1) = 2 ^ (T.p - 1) * 2 ^ emin T := by
      rw [← zpow_natCast, ← zpow_add₀ (by norm_num)]
      congr 1
      cases T <;> simp [emin, FloatType.minExp, FloatType.p]
    rw [h3, hX] at hx
    have h4 := le_of_mul_le_mul_right hx hu
    have h5 : (N T (a + 1) : ℚ) ≤ 2 ^ (T.p - 1) := by exact_mod_cast h2 ▸ h1
    linarith
  have hul := ulp_le hap
  have hul' : (ulpN T a : ℚ) * 2 ^ (T.p - 1) ≤ N T a := by exact_mod_cast hul
  have hsucc : (N T (a + 1) : ℚ) = N T a + ulpN T a := by exact_mod_cast N_succ T a
  have hp2 : (2 : ℚ) ^ T.p = 2 * 2 ^ (T.p - 1) := by cases T <;> norm_num [FloatType.p]
  -- a finite datum within half a unit
  obtain ⟨c, hc, hc2⟩ : ∃ c, c < posInf T ∧ |X - N T c| * 2 ≤ ulpN T a := by
    by_cases hm : (X - N T a) * 2 ≤ ulpN T a
    · exact ⟨a, ha, by rwa [abs_of_nonneg (by linarith)]⟩
    · have ha1 : a + 1 < posInf T := by
        by_contra hcc
        have h1 : a + 1 = posInf T := by omega
        have h2 : a = posInf T - 1 := by omega
        rw [← h2, ← h1, hsucc] at hX2
        apply hm; linarith
      refine ⟨a + 1, ha1, ?_⟩
      rw [abs_of_nonpos (by linarith), hsucc]
      push Not at hm
      linarith
  have hn := roundsTo_le h (isFinite_of_lt hc)
  rw [value_of_lt hc] at hn
  have e1 : |x - N T c * 2 ^ emin T| = |X - N T c| * 2 ^ emin T := by
    rw [hX, ← sub_mul, abs_mul, abs_of_pos hu]
  rw [e1] at hn
  have hp : (0 : ℚ) < 2 ^ (T.p - 1) := by positivity
  rw [hp2]
  have h1 : |x - value T b| * (2 * 2 ^ (T.p - 1)) ≤ |X - N T c| * 2 ^ emin T * (2 * 2 ^ (T.p - 1)) :=
    mul_le_mul_of_nonneg_right hn (by positivity)
  have h2 : |X - N T c| * 2 * (2 ^ (T.p - 1) * 2 ^ emin T) ≤ ulpN T a * (2 ^ (T.p - 1) * 2 ^ emin T) :=
    mul_le_mul_of_nonneg_right hc2 (by positivity)
  have h3 : (ulpN T a * 2 ^ (T.p - 1)) * 2 ^ emin T ≤ X * 2 ^ emin T :=
    mul_le_mul_of_nonneg_right (by linarith) hu.le
  rw [hX]
  rw [hX] at h1
  linarith

/-- Rounding respects the sign. -/
theorem roundsTo_abs {T : FloatType} {x : ℚ} {b : Nat} (hx : x ≠ 0) (h : RoundsTo T x b) :
    ∃ c, RoundsTo T |x| c ∧ value T b = if x < 0 then -value T c else value T c := by
  by_cases hs : x < 0
  · refine ⟨neg T b, ?_, ?_⟩
    · rw [abs_of_neg hs]; exact roundsTo_neg hx h
    · rw [if_pos hs, value_neg h.1.1]; ring
  · refine ⟨b, ?_, by rw [if_neg hs]⟩
    rwa [abs_of_nonneg (not_lt.mp hs)]

/-- What is printed for a `float`: its digits, exponent and margin. -/
theorem float_printed (bits : Nat) (hf : IsFinite .float bits) (h0 : value .float bits ≠ 0)
    (n : Numeral) (hs : Prints .float bits n.text) :
    ∃ (ds : List (Fin 10)) (k : Int), ds ≠ [] ∧ ds.length ≤ 9 ∧ k.natAbs ≤ 343 ∧
      n = fmtNumeral (decide (signBit .float bits = 1)) ds k ∧
      n.absValue = digitsVal ds * 10 ^ k ∧
      n.value = (if signBit .float bits = 1 then -n.absValue else n.absValue) ∧
      grisu2 .float (absPat .float bits) (List.replicate 9 0) 0 =
        .ok (ds.map digitChar ++ (List.replicate 9 0).drop ds.length, ds.length, k) ∧
      ((N .float (absPat .float bits - 1) : ℚ) + N .float (absPat .float bits)) * 2 ^ emin .float * (2 ^ 52 + 1) ≤
        2 * n.absValue * 2 ^ 52 ∧
      2 * n.absValue * (2 ^ 52 + 1) ≤
        ((N .float (absPat .float bits) : ℚ) + N .float (absPat .float bits + 1)) * 2 ^ emin .float * 2 ^ 52 := by
  have ha := absPat_lt_posInf hf
  have hz := abs_ne_zero_of_value h0
  obtain ⟨ds, k, h1, ⟨hne, -⟩, h3, h4, h4', -, hg, h5⟩ := ftoa_main'' .float (absPat .float bits) ha hz
  obtain ⟨ds', k', h1', hg', m1, m2⟩ := float_margin (absPat .float bits) ha hz
  have hl : ds.length ≤ 9 := h1
  have hg0 := hg (List.replicate 9 0) (by simpa using hl)
  have e := hg0.symm.trans hg'
  rw [Except.ok.injEq, Prod.mk.injEq, Prod.mk.injEq] at e
  obtain ⟨e1, e2, e3⟩ := e
  have hd : digitsVal ds' = digitsVal ds := by
    have := List.append_inj_left e1 (by simpa using e2)
    rw [← charsVal_digitChar, ← charsVal_digitChar, this]
  rw [hd, ← e3] at m1 m2
  have hn : n = fmtNumeral (decide (signBit .float bits = 1)) ds k :=
    numeral_text_inj _ _ (prints_unique hs (h5 bits hf.1 rfl))
  have habs : n.absValue = digitsVal ds * 10 ^ k := by
    rw [hn]; exact fmt_absValue _ _ _ hne (fmtK h1 hne h4)
  refine ⟨ds, k, hne, hl, h4, hn, habs, ?_, hg0, ?_, ?_⟩
  · rw [habs, hn, fmt_value _ _ _ hne (fmtK h1 hne h4)]
    simp only [decide_eq_true_eq]
  · rw [habs]; exact m1
  · rw [habs]; exact m2

/-- The printed decimals of `float`s are far above the subnormal `double`s. -/
theorem float_printed_lo {a : Nat} {x : ℚ} (h0 : a ≠ 0)
    (h : ((N .float (a - 1) : ℚ) + N .float a) * 2 ^ emin .float * (2 ^ 52 + 1) ≤ 2 * x * 2 ^ 52) :
    (2 : ℚ) ^ (-150 : Int) < x := by
  have h1 : 1 ≤ N .float a := by
    have := N_lt (T := .float) (show 0 < a by omega)
    rw [N_zero] at this; omega
  have h1' : (1 : ℚ) ≤ (N .float (a - 1) : ℚ) + N .float a := by
    have : (0 : ℚ) ≤ N .float (a - 1) := by positivity
    have : (1 : ℚ) ≤ N .float a := by exact_mod_cast h1
    linarith
  have e : (2 : ℚ) ^ emin .float = 2 * 2 ^ (-150 : Int) := by
    rw [show emin .float = 1 + (-150 : Int) by decide, zpow_add₀ (by norm_num)]
    norm_num
  rw [e] at h
  have hp : (0 : ℚ) < 2 ^ (-150 : Int) := by positivity
  generalize (2 : ℚ) ^ (-150 : Int) = w at *
  have hB : (0 : ℚ) < 2 ^ 52 := by norm_num
  generalize (2 : ℚ) ^ 52 = B at *
  have h2 : w * (B + 1) ≤ x * B := by nlinarith [mul_le_mul_of_nonneg_right h1' (show 0 ≤ w * (B + 1) by positivity)]
  by_contra hc
  push Not at hc
  nlinarith

/-- **C61.** The text `ftoa` prints for a finite non-zero `float`, read by any
correctly rounding reader of `double` and then narrowed to `float`, gives the
`float` back: the `double` is strictly closer to it than to any other `float`. -/
theorem C61_float_text_as_double (bits : Nat) (hf : IsFinite .float bits) (h0 : value .float bits ≠ 0)
    (n : Numeral) (hs : Prints .float bits n.text) (b : Nat) (hb : RoundsTo .double n.value b) :
    Identifies .float (value .double b) bits ∧
      ∀ c, RoundsTo .float (value .double b) c ↔ c = bits := by
  have hid : Identifies .float (value .double b) bits := by
    obtain ⟨ds, k, hne, hl, hk, hn, habs, hval, -, m1, m2⟩ := float_printed bits hf h0 n hs
    have ha := absPat_lt_posInf hf
    have hz := abs_ne_zero_of_value h0
    have hlo := float_printed_lo hz m1
    have hx0 : 0 < n.absValue := lt_trans (by positivity) hlo
    have hv0 : n.value ≠ 0 := by rw [hval]; split_ifs <;> linarith
    obtain ⟨c, c1, c2⟩ := roundsTo_abs hv0 hb
    rw [abs_value_num] at c1
    have hrel := roundsTo_rel c1 (le_trans (zpow_le_zpow_right₀ (by norm_num) (by decide)) hlo.le)
    have hneg : n.value < 0 ↔ signBit .float bits = 1 := by
      rw [hval]; split_ifs with hsb <;> simp [hsb] <;> linarith
    have hcv : Identifies .float (value .double c) (absPat .float bits) := by
      have hu := emin_pos .float
      have hy0 : 0 ≤ value .double c := by rw [roundsTo_pos hx0.le c1]; positivity
      obtain ⟨Y, hY⟩ : ∃ Y, value .double c = Y * 2 ^ emin .float :=
        ⟨value .double c / 2 ^ emin .float, by field_simp⟩
      obtain ⟨r1, r2⟩ := abs_le.mp (le_of_eq (rfl : |n.absValue - value .double c| = _))
      have hp : (2 : ℚ) ^ FloatType.p .double = 2 * 2 ^ 52 := by norm_num [FloatType.p]
      rw [hp] at hrel
      have hB : (1 : ℚ) < 2 ^ 52 := by norm_num
      generalize (2 : ℚ) ^ 52 = B at *
      generalize |n.absValue - value .double c| = d at *
      generalize n.absValue = x at *
      generalize value .double c = y at *
      rw [hY]
      have key1 : ((N .float (absPat .float bits - 1) : ℚ) + N .float (absPat .float bits)) * 2 ^ emin .float < 2 * y := by
        generalize ((N .float (absPat .float bits - 1) : ℚ) + N .float (absPat .float bits)) * 2 ^ emin .float = L at *
        -- y ≥ x - d, 2 B d ≤ x, L (B+1) ≤ 2 x B
        by_contra hcc
        push Not at hcc
        have q1 : 2 * x - 2 * d ≤ L := by linarith
        have q2 : (2 * x - 2 * d) * (B + 1) ≤ 2 * x * B := le_trans (mul_le_mul_of_nonneg_right q1 (by linarith)) m1
        nlinarith
      have key2 : 2 * y < ((N .float (absPat .float bits) : ℚ) + N .float (absPat .float bits + 1)) * 2 ^ emin .float := by
        generalize ((N .float (absPat .float bits) : ℚ) + N .float (absPat .float bits + 1)) * 2 ^ emin .float = R at *
        by_contra hcc
        push Not at hcc
        have q1 : R ≤ 2 * x + 2 * d := by linarith
        have q2 : 2 * x * (B + 1) ≤ (2 * x + 2 * d) * B := le_trans m2 (mul_le_mul_of_nonneg_right q1 (by linarith))
        nlinarith
      rw [hY] at key1 key2 hy0
      apply closest_pos ha (le_of_mul_le_mul_right (by simpa using hy0) hu) (Or.inr _) _
      · apply lt_of_mul_lt_mul_right _ hu.le
        linarith
      · apply lt_of_mul_lt_mul_right _ hu.le
        linarith
    have := identifies_signed hf hcv
    rw [c2]
    simp only [decide_eq_true_eq] at this
    by_cases hsb : signBit .float bits = 1
    · rw [if_pos (hneg.mpr hsb)]; rwa [if_pos hsb] at this
    · rw [if_neg (fun h => hsb (hneg.mp h))]; rwa [if_neg hsb] at this
  refine ⟨hid, fun c => ⟨fun h => identifies_roundsTo_unique hid h0 h, ?_⟩⟩
  rintro rfl
  exact identifies_roundsTo hid h0

/-! ## With `atof<double>` as the reader

Its one defect in this range, the lost carry (C21), does not occur: for no power
of two is the decimal printed for the `float` so close below it. -/

/-- The decimal printed for the power of two `a` is not below it, or too far below
for the nearest `double` to be that power of two. -/
def farBelow (a : Nat) : Bool :=
  match grisu2P fastPower .float a (List.replicate 9 0) 0 with
  | .ok (buf, n, k) =>
    let A := charsVal (buf.take n) * 10 ^ k.toNat * 2 ^ 149
    let D := 10 ^ (-k).toNat
    decide (D * N .float a ≤ A) || decide (D * N .float a + A * 2 ^ 54 < D * N .float a * 2 ^ 54)
  | _ => false

theorem farBelow_all : (List.range' 1 254).all (fun e => farBelow (e * 2 ^ 23)) = true ∧
    (List.range 23).all (fun e => farBelow (2 ^ e)) = true := by decide +kernel

theorem far_of_check {a : Nat} {ds : List (Fin 10)} {k : Int} (hc : farBelow a = true)
    (hg : grisu2 .float a (List.replicate 9 0) 0 = .ok (ds.map digitChar ++ (List.replicate 9 0).drop ds.length, ds.length, k)) :
    (N .float a : ℚ) * 2 ^ emin .float ≤ digitsVal ds * 10 ^ k ∨
      (N .float a : ℚ) * 2 ^ emin .float < (N .float a * 2 ^ emin .float - digitsVal ds * 10 ^ k) * 2 ^ 54 := by
  unfold farBelow at hc
  rw [grisu2P_eq, hg] at hc
  simp only [Bool.or_eq_true, decide_eq_true_eq] at hc
  rw [List.take_left' (by simp), charsVal_digitChar] at hc
  have hB : ((2 : ℚ) ^ 54) = ((2 ^ 54 : Nat) : ℚ) := by norm_num
  rw [hB]
  clear hB
  have z2 : (2 : ℚ) ^ emin .float * ((2 ^ 149 : Nat) : ℚ) = 1 := by
    norm_num [emin, FloatType.minExp, FloatType.p]
  have hy : 0 < (2 ^ 149 : Nat) := by positivity
  generalize (2 ^ 149 : Nat) = Y at *
  generalize (2 ^ 54 : Nat) = B at *
  have z1 := zpow_split 10 (by norm_num) k
  have p1 : (0 : ℚ) < 10 ^ (-k).toNat * (Y : ℚ) := by positivity
  rcases hc with c | c
  · left
    have c' : ((10 ^ (-k).toNat * N .float a : Nat) : ℚ) ≤ ((digitsVal ds * 10 ^ k.toNat * Y : Nat) : ℚ) := by
      exact_mod_cast c
    push_cast at c'
    rw [← z1] at c'
    generalize (10 : ℚ) ^ k = x at *
    generalize (10 : ℚ) ^ (-k).toNat = z at *
    generalize (2 : ℚ) ^ emin .float = w at *
    apply le_of_mul_le_mul_right _ p1
    linear_combination c' + (N .float a : ℚ) * z * z2
  · right
    have c' : ((10 ^ (-k).toNat * N .float a + digitsVal ds * 10 ^ k.toNat * Y * B : Nat) : ℚ) <
        ((10 ^ (-k).toNat * N .float a * B : Nat) : ℚ) := by exact_mod_cast c
    push_cast at c'
    rw [← z1] at c'
    generalize (10 : ℚ) ^ k = x at *
    generalize (10 : ℚ) ^ (-k).toNat = z at *
    generalize (2 : ℚ) ^ emin .float = w at *
    apply lt_of_mul_lt_mul_right _ p1.le
    linear_combination c' + ((N .float a : ℚ) * z - N .float a * z * B) * z2

/-- The `double` below a power of two limits what is rounded up to it. -/
theorem pow2_near {T : FloatType} {x : ℚ} {b : Nat} {j : Int} (h : RoundsTo T x b) (hx : 0 ≤ x) (hv : value T b = 2 ^ j)
    (hj : T.minExp - 1 < j) (hlt : x < 2 ^ j) : (2 ^ j - x) * 2 ^ (T.p + 1) ≤ 2 ^ j := by
  have hu := emin_pos T
  obtain ⟨e, e1, e2, e3⟩ := absPat_pow2 (T := T) (bits := b) (j := j) (by rw [hv, abs_of_pos (by positivity)]) hj.le
  have hbf := absPat_lt_posInf h.1
  have he2 : 2 ≤ e := by omega
  have hc : absPat T b - 1 < posInf T := by omega
  have hpp : 0 < 2 ^ (T.p - 1) := by positivity
  have hone : absPat T b ≠ 0 := by rw [e3]; positivity
  have hn := roundsTo_le h (isFinite_of_lt hc)
  rw [value_of_lt hc, roundsTo_pos hx h] at hn
  have hs := N_succ T (absPat T b - 1)
  rw [Nat.sub_add_cancel (by omega)] at hs
  have hul : ulpN T (absPat T b - 1) = 2 ^ (e - 2) := by
    unfold ulpN
    have : (absPat T b - 1) / 2 ^ (T.p - 1) = e - 1 := by
      rw [e3]
      apply Nat.div_eq_of_lt_le
      · have : (e - 1) * 2 ^ (T.p - 1) = e * 2 ^ (T.p - 1) - 2 ^ (T.p - 1) := by rw [Nat.sub_mul, Nat.one_mul]
        omega
      · rw [Nat.sub_add_cancel (by omega)]
        have : 0 < e * 2 ^ (T.p - 1) := by positivity
        omega
    rw [this]; congr 1
  have hNb : (N T (absPat T b) : ℚ) * 2 ^ emin T = 2 ^ j := by rw [← roundsTo_pos hx h, hv]
  have hulp : (ulpN T (absPat T b - 1) : ℚ) * 2 ^ emin T * 2 ^ T.p = 2 ^ j := by
    rw [hul]
    push_cast
    rw [← zpow_natCast, ← zpow_natCast, ← zpow_add₀ (by norm_num), ← zpow_add₀ (by norm_num)]
    congr 1
    unfold emin
    omega
  have hsq : (N T (absPat T b) : ℚ) = N T (absPat T b - 1) + ulpN T (absPat T b - 1) := by exact_mod_cast hs
  rw [hNb, abs_of_neg (by linarith)] at hn
  have hprev : (N T (absPat T b - 1) : ℚ) * 2 ^ emin T = 2 ^ j - ulpN T (absPat T b - 1) * 2 ^ emin T := by
    rw [← hNb, hsq]; ring
  rw [hprev] at hn
  rw [pow_succ]
  have hP : (0 : ℚ) < 2 ^ T.p := by positivity
  have hu0 : 0 < (ulpN T (absPat T b - 1) : ℚ) * 2 ^ emin T := by
    have : (0 : ℚ) < ulpN T (absPat T b - 1) := by exact_mod_cast ulpN_pos T _
    positivity
  generalize (ulpN T (absPat T b - 1) : ℚ) * 2 ^ emin T = u at *
  generalize (2 : ℚ) ^ j = J at *
  generalize (2 : ℚ) ^ T.p = P at *
  have h2 : 2 * (J - x) ≤ u := by
    rcases le_abs'.mp hn with q | q <;> rcases abs_cases (x - (J - u)) with ⟨q1, -⟩ | ⟨q1, -⟩ <;> rw [q1] at hn <;> linarith
  nlinarith [mul_le_mul_of_nonneg_right h2 hP.le]

/-- **C61 with `atof<double>`.** The text `ftoa` prints for a finite non-zero
`float`, parsed with `atof<double>` (with a fallback that reads correctly if it
is asked): success, all of it consumed, the result is the `double` nearest to
the decimal, and narrowing it to `float` gives the original. -/
theorem C61_atof_double (bits : Nat) (hf : IsFinite .float bits) (h0 : value .float bits ≠ 0)
    (n : Numeral) (hs : Prints .float bits n.text) (fb : Fallback) (errno : Nat) (pre rest : List Nat)
    (hfb : FallbackReads .double fb errno (pre ++ (n.text ++ 0 :: rest)) pre.length n) :
    ∃ r, atof .double fb errno (pre ++ (n.text ++ 0 :: rest)) pre.length = .ok r ∧
      r.strEnd = pre.length + n.text.length ∧ r.status = .success ∧
      RoundsTo .double n.value r.value ∧
      ∀ c, RoundsTo .float (value .double r.value) c ↔ c = bits := by
  obtain ⟨ds, k, hne, hl, hk, hn, habs, hval, hg, m1, m2⟩ := float_printed bits hf h0 n hs
  have hat : NumeralAt (pre ++ (n.text ++ 0 :: rest)) pre.length n := by
    rw [hn]; exact fmt_at _ hne (by omega) hk pre rest
  have hm : digitsVal ds < 10 ^ FloatType.digits10 .double :=
    lt_of_lt_of_le (digitsVal_lt ds) (Nat.pow_le_pow_right (by norm_num) (by simp [digits10]; omega))
  have ha := absPat_lt_posInf hf
  have hz := abs_ne_zero_of_value h0
  have hlo := float_printed_lo hz m1
  have hx0 : 0 < n.absValue := lt_trans (by positivity) hlo
  have hv0 : n.value ≠ 0 := by rw [hval]; split_ifs <;> linarith
  have hhi : n.absValue < overflowThreshold .double := by
    have h1 : (N .float (absPat .float bits) : ℚ) ≤ N .float (posInf .float) := by exact_mod_cast N_le ha.le
    have h2 : (N .float (absPat .float bits + 1) : ℚ) ≤ N .float (posInf .float) := by exact_mod_cast N_le ha
    have h3 := N_posInf .float
    have h4 : (2 : ℚ) ^ FloatType.maxExp .float < overflowThreshold .double := by decide +kernel
    refine lt_of_le_of_lt ?_ h4
    rw [← h3]
    have hu := emin_pos .float
    have hB : (0 : ℚ) < 2 ^ 52 := by norm_num
    generalize (2 : ℚ) ^ emin .float = w at *
    generalize (2 : ℚ) ^ 52 = B at *
    have h5 := mul_le_mul_of_nonneg_right (mul_le_mul_of_nonneg_right (add_le_add h1 h2) hu.le) hB.le
    have h6 : 2 * n.absValue * B ≤ (2 * (N .float (posInf .float) * w)) * B := by nlinarith
    have := le_of_mul_le_mul_right h6 hB
    linarith
  have hmain : ∀ b v, RoundsTo .double n.value b → (v = b ∨ CarryLost .double n.value b v) → v = b := by
    rintro b v hb (rfl | ⟨-, -, j, j1, j2, j3, -⟩)
    · rfl
    exfalso
    obtain ⟨c, c1, c2⟩ := roundsTo_abs hv0 hb
    rw [abs_value_num] at c1 j3
    have hcp := roundsTo_pos hx0.le c1
    have hcj : value .double c = 2 ^ j := by
      rw [c2] at j2
      have : |value .double c| = 2 ^ j := by
        split_ifs at j2
        · rwa [abs_neg] at j2
        · exact j2
      rwa [abs_of_nonneg (by rw [hcp]; positivity)] at this
    have hid := (C61_float_text_as_double bits hf h0 n hs b hb).1
    have hjlo : -150 < j := by
      have := lt_trans hlo j3
      exact (zpow_lt_zpow_iff_right₀ (by norm_num : (1 : ℚ) < 2)).mp this
    have hjhi : j < 128 := by
      have h1 := hid.2.1
      rw [j2] at h1
      have h2 : overflowThreshold .float < (2 : ℚ) ^ (128 : Int) := by decide +kernel
      exact (zpow_lt_zpow_iff_right₀ (by norm_num : (1 : ℚ) < 2)).mp (lt_trans h1 h2)
    -- that power of two is a `float`
    obtain ⟨d, d1, d2, d3⟩ : ∃ d, d < posInf .float ∧ farBelow d = true ∧ (N .float d : ℚ) * 2 ^ emin .float = 2 ^ j := by
      by_cases hj126 : -126 ≤ j
      · obtain ⟨e, he⟩ : ∃ e : Nat, j = (e : Int) - 127 := ⟨(j + 127).toNat, by omega⟩
        have hfb := List.all_eq_true.mp farBelow_all.1 e (by rw [List.mem_range'_1]; omega)
        refine ⟨e * 2 ^ 23, ?_, hfb, ?_⟩
        · have : posInf .float = 255 * 2 ^ 23 := by decide
          rw [this]; apply Nat.mul_lt_mul_of_pos_right (by omega) (by positivity)
        · have : N .float (e * 2 ^ 23) = 2 ^ (e + 22) := by
            have h1 : e * 2 ^ 23 / 2 ^ (FloatType.p .float - 1) = e := Nat.mul_div_cancel _ (by positivity)
            have h2 : e * 2 ^ 23 % 2 ^ (FloatType.p .float - 1) = 0 := Nat.mul_mod_left _ _
            unfold N
            rw [h1, h2, if_neg (by omega), Nat.add_zero, show FloatType.p .float - 1 = 23 by decide, ← pow_add]
            congr 1; omega
          rw [this]; push_cast
          rw [← zpow_natCast, ← zpow_add₀ (by norm_num)]
          congr 1
          rw [he, show emin .float = -149 by decide]; push_cast; omega
      · obtain ⟨e, he⟩ : ∃ e : Nat, j = (e : Int) - 149 := ⟨(j + 149).toNat, by omega⟩
        have he23 : e < 23 := by omega
        have hfb := List.all_eq_true.mp farBelow_all.2 e (by rw [List.mem_range]; omega)
        have hlt : 2 ^ e < 2 ^ 23 := Nat.pow_lt_pow_right (by norm_num) he23
        refine ⟨2 ^ e, ?_, hfb, ?_⟩
        · have : 2 ^ 23 < posInf .float := by decide
          omega
        · have : N .float (2 ^ e) = 2 ^ e := by
            have h1 : 2 ^ e / 2 ^ (FloatType.p .float - 1) = 0 := Nat.div_eq_of_lt hlt
            have h2 : 2 ^ e % 2 ^ (FloatType.p .float - 1) = 2 ^ e := Nat.mod_eq_of_lt hlt
            unfold N
            rw [h1, if_pos rfl, h2]
            simp
          rw [this]; push_cast
          rw [← zpow_natCast, ← zpow_add₀ (by norm_num)]
          congr 1
          rw [he, show emin .float = -149 by decide]; omega
    have hvd : value .float d = 2 ^ j := by rw [value_of_lt d1, d3]
    have hvb : value .float bits = value .double b := by
      by_contra hcon
      obtain ⟨d', hd', hd''⟩ : ∃ d', IsFinite .float d' ∧ value .float d' = value .double b := by
        rw [c2, hcj]
        split_ifs
        · exact ⟨neg .float d, isFinite_neg (isFinite_of_lt d1), by rw [value_neg (isFinite_of_lt d1).1, hvd]⟩
        · exact ⟨d, isFinite_of_lt d1, hvd⟩
      have := hid.2.2 d' hd' (by rw [hd'']; exact fun h => hcon h.symm)
      rw [hd'', sub_self, abs_zero] at this
      exact absurd this (not_lt.mpr (abs_nonneg _))
    have hda : absPat .float bits = d := by
      apply N_inj (T := .float)
      have h1 : |value .float bits| = 2 ^ j := by rw [hvb, j2]
      rw [value_abs, ← d3] at h1
      exact_mod_cast mul_right_cancel₀ (emin_pos .float).ne' h1
    rw [hda] at hg
    have hfar := far_of_check d2 hg
    rw [d3, ← habs] at hfar
    have hnear := pow2_near c1 hx0.le hcj (by
      have : FloatType.minExp .double - 1 < -149 := by decide
      omega) j3
    rw [show FloatType.p .double + 1 = 54 by decide] at hnear
    rcases hfar with q | q
    · exact absurd j3 (not_lt.mpr q)
    · exact absurd hnear (not_le.mpr q)
  obtain ⟨r, r1, r2⟩ := C20_short_correctly_rounded .double fb errno _ _ n hat (digitsVal ds) k hm habs
    (fun hT => by cases hT) (le_trans (zpow_le_zpow_right₀ (by norm_num) (by decide)) hlo.le) hhi
  refine ⟨r, r1, ?_⟩
  rcases r2 with ⟨d0, d1, d2, d3, d4⟩ | ⟨b, v, b1, rfl, b3⟩
  · replace hfb := hfb r r1 d0
    rw [d3, if_pos hfb.2.2] at d4
    have hr : RoundsTo .double n.value r.value := by rw [d1]; exact hfb.1
    exact ⟨by rw [d2, hfb.2.1], d4, hr, (C61_float_text_as_double bits hf h0 n hs _ hr).2⟩
  · have := hmain b v b1 b3
    subst this
    exact ⟨rfl, rfl, b1, (C61_float_text_as_double bits hf h0 n hs _ b1).2⟩

/-- The hypotheses can be met: `2^29`, which `atof<float>` misreads (C22); no fallback
is asked, so any will do. -/
example (fb : Fallback) : ∃ r, atof .double fb 0 (chars "536870900\x00") 0 = .ok r ∧
    r.strEnd = 9 ∧ r.status = .success ∧ ∀ c, RoundsTo .float (value .double r.value) c ↔ c = 0x4E000000 := by
  have hk : krosh .double (chars "536870900\x00") 0 = .ok ⟨0x41BFFFFFF4000000, 9, .success, true⟩ := by decide +kernel
  obtain ⟨r, r1, r2, r3, -, r5⟩ := C61_atof_double 0x4E000000 ⟨by decide, by decide⟩ (by decide +kernel)
    ⟨none, [5,3,6,8,7,0,9,0,0], none, none⟩ (prints_eval (by decide) (by decide +kernel))
    fb 0 [] [] (fun r h1 h2 => by
      have h1' : atof .double fb 0 (chars "536870900\x00") 0 = .ok r := h1
      rw [atof_of_krosh hk (by decide), Except.ok.injEq] at h1'
      rw [← h1'] at h2; cases h2)
  exact ⟨r, r1, r2, r3, r5⟩

end Floaxie
