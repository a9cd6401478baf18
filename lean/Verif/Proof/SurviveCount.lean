import Verif.Proof.FloorSum
import Verif.Spec.Shortest
import Verif.Proof.Ieee

/-!
# Counting the short decimals that are well inside a rounding interval

All decimals with the same last place and the same binary exponent at a time.
-/

namespace Floaxie

open Spec FloatType

/-- `d * 10^k` is read and printed unchanged: it is well inside the rounding interval of
`M * 2^e`, and not below it if that is a power of two. -/
def Good (T : FloatType) (k : Int) (d : Nat) : Prop :=
  ∃ (e : Int) (M : Nat), 2 ^ (T.p - 1) ≤ M ∧ M < 2 ^ T.p ∧
    (M = 2 ^ (T.p - 1) → (M : ℚ) * 2 ^ e ≤ d * 10 ^ k) ∧
    ((M : ℚ) - 1 / 2 + 1 / cutOff T) * 2 ^ e < d * 10 ^ k ∧
    (d * 10 ^ k : ℚ) < (M + 1 / 2 - 1 / cutOff T) * 2 ^ e

/-- An upper bound for the number of the `d` from `lo` below `10^n` that are not good, and
`acc`; `s1 - 2000` is the binary exponent of `lo`, `k1 - 1000` the decimal exponent. -/
def surviveLoop (T : FloatType) (k1 : Nat) : (fuel s1 lo acc : Nat) → Option Nat
  | 0, _, _, _ => none
  | fuel + 1, s1, lo, acc =>
    force (5 ^ (k1 - 1000) * 2 ^ (k1 + 1000 - s1)) fun A =>
    force (5 ^ (1000 - k1) * 2 ^ (s1 - (k1 + 1000))) fun B =>
    force (min (10 ^ decimalDigits T) ((2 ^ T.p * B + A - 1) / A)) fun hi =>
    force (2 * cutOff T * B) fun m =>
    force (2 * cutOff T * A) fun a =>
    if 2 ^ (T.p - 1) * B ≤ lo * A ∧ lo < hi ∧ (hi - 1) * A < 2 ^ T.p * B ∧ B ≤ 2 * A then
      match countMod 2000 (hi - lo) m a (lo * a + cutOff T * B + 2 * B) (4 * B + 1) with
      | none => none
      | some c =>
        force (acc + c + 1) fun acc =>
        if hi = 10 ^ decimalDigits T then some acc else force (s1 + 1) fun s1 => surviveLoop T k1 fuel s1 hi acc
    else none

/-- For all numbers of `n` digits. -/
def surviveCount (T : FloatType) (k1 : Nat) : Option Nat :=
  force (((k1 + decimalDigits T - 1) * 217706 + 2000 * 65536 - 217706000) / 65536) fun b =>
  surviveLoop T k1 6 (b + 1 - T.p) (10 ^ (decimalDigits T - 1)) 0

/-- `10^k = A/B * 2^e`. -/
theorem ratio_pow (k1 s1 : Nat) :
    ((5 ^ (k1 - 1000) * 2 ^ (k1 + 1000 - s1) : Nat) : ℚ) * 2 ^ ((s1 : Int) - 2000) =
      10 ^ ((k1 : Int) - 1000) * (5 ^ (1000 - k1) * 2 ^ (s1 - (k1 + 1000)) : Nat) := by
  have h5 : (5 : ℚ) ^ (k1 - 1000) = 5 ^ ((k1 : Int) - 1000) * 5 ^ (1000 - k1) := by
    rw [← zpow_natCast, ← zpow_natCast, ← zpow_add₀ (by norm_num)]
    congr 1; omega
  have h2 : (2 : ℚ) ^ (k1 + 1000 - s1) * 2 ^ ((s1 : Int) - 2000) =
      2 ^ ((k1 : Int) - 1000) * 2 ^ (s1 - (k1 + 1000)) := by
    rw [← zpow_natCast, ← zpow_natCast, ← zpow_add₀ (by norm_num), ← zpow_add₀ (by norm_num)]
    congr 1; omega
  have h10 : (10 : ℚ) ^ ((k1 : Int) - 1000) = 5 ^ ((k1 : Int) - 1000) * 2 ^ ((k1 : Int) - 1000) := by
    rw [← mul_zpow]; norm_num
  push_cast
  rw [mul_assoc, h2, h5, h10]
  ring

/-- Outside the window around the half. -/
theorem outside_window {c B r : Nat} (hc : 4 ≤ c) (hr : r < B)
    (h : ¬ (2 * c * r + c * B + 2 * B) % (2 * c * B) < 4 * B + 1) :
    2 * c * r + 2 * B < c * B ∨ c * B + 2 * B < 2 * c * r := by
  have h1 : c * r < c * B := Nat.mul_lt_mul_of_pos_left hr (by omega)
  have h2 : 4 * B ≤ c * B := Nat.mul_le_mul_right _ hc
  rw [mul_assoc, mul_assoc] at h
  rw [mul_assoc]
  generalize c * r = R at *
  generalize c * B = C at *
  rcases lt_or_ge (2 * R + C + 2 * B) (2 * C) with h3 | h3
  · left; omega
  · right
    rw [Nat.mod_eq_sub_mod h3, Nat.mod_eq_of_lt (by omega)] at h
    omega

theorem good_of {T : FloatType} {k1 s1 hi d A B : Nat}
    (hA : A = 5 ^ (k1 - 1000) * 2 ^ (k1 + 1000 - s1)) (hB : B = 5 ^ (1000 - k1) * 2 ^ (s1 - (k1 + 1000)))
    (h1 : 2 ^ (T.p - 1) * B ≤ d * A) (h3 : (hi - 1) * A < 2 ^ T.p * B) (h4 : B ≤ 2 * A) (hd : d + 1 < hi)
    (h : ¬ (2 * cutOff T * A * d + cutOff T * B + 2 * B) % (2 * cutOff T * B) < 4 * B + 1) :
    Good T ((k1 : Int) - 1000) d := by
  have hA0 : 0 < A := hA ▸ Nat.mul_pos (Nat.pow_pos (by norm_num)) (Nat.pow_pos (by norm_num))
  have hB0 : 0 < B := hB ▸ Nat.mul_pos (Nat.pow_pos (by norm_num)) (Nat.pow_pos (by norm_num))
  have hp : 2 ^ T.p = 2 * 2 ^ (T.p - 1) := by cases T <;> decide
  have hc : 4 ≤ cutOff T := by cases T <;> decide
  have hratio := ratio_pow k1 s1
  rw [← hA, ← hB] at hratio
  clear hA hB
  have hx : (d : ℚ) * 10 ^ ((k1 : Int) - 1000) = (d * A : Nat) / B * 2 ^ ((s1 : Int) - 2000) := by
    have : (B : ℚ) ≠ 0 := by positivity
    field_simp
    push_cast
    rw [mul_assoc, mul_assoc, hratio]
  have hu : (0 : ℚ) < 2 ^ ((s1 : Int) - 2000) := by positivity
  have hX : d * A + A < 2 ^ T.p * B := by
    have : (d + 1) * A ≤ (hi - 1) * A := Nat.mul_le_mul_right _ (by omega)
    rw [add_mul, one_mul] at this
    omega
  have hdm := Nat.div_add_mod (d * A) B
  have hrB := Nat.mod_lt (d * A) hB0
  have hmod : ¬ (2 * cutOff T * (d * A % B) + cutOff T * B + 2 * B) % (2 * cutOff T * B) < 4 * B + 1 := by
    have e : 2 * cutOff T * A * d + cutOff T * B + 2 * B =
        (2 * cutOff T * (d * A % B) + cutOff T * B + 2 * B) + 2 * cutOff T * B * (d * A / B) := by
      have : 2 * cutOff T * A * d = 2 * cutOff T * (d * A) := by ring
      rw [this]
      conv_lhs => rw [← hdm]
      ring
    rwa [e, Nat.add_mul_mod_self_left] at h
  have hout := outside_window hc hrB hmod
  have hq1 : 2 ^ (T.p - 1) ≤ d * A / B := (Nat.le_div_iff_mul_le hB0).mpr h1
  have hq2 : d * A / B < 2 ^ T.p := Nat.div_lt_of_lt_mul (by rw [mul_comm B]; omega)
  have hBq : (0 : ℚ) < B := by exact_mod_cast hB0
  have hcq : (0 : ℚ) < cutOff T := by have : 0 < cutOff T := by omega
                                      exact_mod_cast this
  have hfrac : ((d * A : Nat) : ℚ) / B = (d * A / B : Nat) + (d * A % B : Nat) / B := by
    have : ((d * A : Nat) : ℚ) = B * (d * A / B : Nat) + (d * A % B : Nat) := by exact_mod_cast hdm.symm
    rw [this]; field_simp
  unfold Good
  rw [hx, hfrac]
  generalize d * A % B = r at *
  generalize d * A / B = q at *
  have hr0 : (0 : ℚ) ≤ (r : ℚ) / B := by positivity
  rcases hout with ho | ho
  · refine ⟨(s1 : Int) - 2000, q, hq1, hq2, ?_, ?_, ?_⟩
    · intro _
      exact mul_le_mul_of_nonneg_right (by linarith) hu.le
    · apply mul_lt_mul_of_pos_right _ hu
      have : (1 : ℚ) / cutOff T < 1 / 2 := by
        rw [div_lt_div_iff₀ hcq (by norm_num)]
        have : (4 : ℚ) ≤ cutOff T := by exact_mod_cast hc
        linarith
      linarith
    · apply mul_lt_mul_of_pos_right _ hu
      have ho' : (2 : ℚ) * cutOff T * r + 2 * B < cutOff T * B := by exact_mod_cast ho
      have : (r : ℚ) / B < 1 / 2 - 1 / cutOff T := by
        rw [div_lt_iff₀ hBq]
        have e : ((1 : ℚ) / 2 - 1 / cutOff T) * B = (cutOff T * B - 2 * B) / (2 * cutOff T) := by field_simp
        rw [e, lt_div_iff₀ (by positivity)]
        linarith
      linarith
  · have hq : q + 1 < 2 ^ T.p := by
      by_contra hc'
      have hq' : q = 2 ^ T.p - 1 := by omega
      have hr2 : B < 2 * r := by
        have : cutOff T * B < cutOff T * (2 * r) := by
          have : cutOff T * (2 * r) = 2 * cutOff T * r := by ring
          omega
        exact Nat.lt_of_mul_lt_mul_left this
      have : B * (q + 1) = 2 ^ T.p * B := by
        rw [hq', Nat.sub_add_cancel (Nat.one_le_two_pow)]; ring
      rw [mul_add, mul_one] at this
      omega
    refine ⟨(s1 : Int) - 2000, q + 1, by omega, hq, ?_, ?_, ?_⟩
    · intro hc'; omega
    · apply mul_lt_mul_of_pos_right _ hu
      have ho' : (cutOff T : ℚ) * B + 2 * B < 2 * cutOff T * r := by exact_mod_cast ho
      have : (1 : ℚ) / 2 + 1 / cutOff T < r / B := by
        rw [lt_div_iff₀ hBq]
        have e : ((1 : ℚ) / 2 + 1 / cutOff T) * B = (cutOff T * B + 2 * B) / (2 * cutOff T) := by field_simp
        rw [e, div_lt_iff₀ (by positivity)]
        linarith
      push_cast
      linarith
    · apply mul_lt_mul_of_pos_right _ hu
      have h5 : (r : ℚ) / B < 1 := by
        rw [div_lt_one hBq]; exact_mod_cast hrB
      have : (1 : ℚ) / cutOff T < 1 / 2 := by
        rw [div_lt_div_iff₀ hcq (by norm_num)]
        have : (4 : ℚ) ≤ cutOff T := by exact_mod_cast hc
        linarith
      push_cast
      linarith

open Classical in
theorem surviveLoop_spec {T : FloatType} {k1 : Nat} (fuel s1 lo acc r : Nat) (h : surviveLoop T k1 fuel s1 lo acc = some r) :
    ((Finset.Ico lo (10 ^ decimalDigits T)).filter (fun d => ¬ Good T ((k1 : Int) - 1000) d)).card + acc ≤ r := by
  induction fuel generalizing s1 lo acc with
  | zero => simp [surviveLoop] at h
  | succ fuel ih =>
    unfold surviveLoop at h
    simp only [force_eq] at h
    set A := 5 ^ (k1 - 1000) * 2 ^ (k1 + 1000 - s1) with hA
    set B := 5 ^ (1000 - k1) * 2 ^ (s1 - (k1 + 1000)) with hB
    set hi := min (10 ^ decimalDigits T) ((2 ^ T.p * B + A - 1) / A) with hhi
    have hB0 : 0 < B := hB ▸ Nat.mul_pos (Nat.pow_pos (by norm_num)) (Nat.pow_pos (by norm_num))
    have hc4 : 4 ≤ cutOff T := by cases T <;> decide
    split at h
    case isFalse => simp at h
    case isTrue hc =>
    obtain ⟨g1, g2, g3, g4⟩ := hc
    cases hcm : countMod 2000 (hi - lo) (2 * cutOff T * B) (2 * cutOff T * A)
        (lo * (2 * cutOff T * A) + cutOff T * B + 2 * B) (4 * B + 1) with
    | none => rw [hcm] at h; simp at h
    | some c =>
    rw [hcm] at h
    simp only at h
    have hcount := countMod_eq _ _ _ _ _ _ _ (Nat.mul_pos (by omega) hB0) (by
      have : 8 * B ≤ 2 * cutOff T * B := Nat.mul_le_mul_right _ (by omega)
      omega) hcm
    have hhi10 : hi ≤ 10 ^ decimalDigits T := min_le_left _ _
    have hpart : ((Finset.Ico lo hi).filter (fun d => ¬ Good T ((k1 : Int) - 1000) d)).card ≤ c + 1 := by
      have hsub : (Finset.Ico lo hi).filter (fun d => ¬ Good T ((k1 : Int) - 1000) d) ⊆
          insert (hi - 1) (((Finset.range (hi - lo)).filter (fun i =>
            (2 * cutOff T * A * i + (lo * (2 * cutOff T * A) + cutOff T * B + 2 * B)) % (2 * cutOff T * B) < 4 * B + 1)).image
              (fun i => lo + i)) := by
        intro d hd
        rw [Finset.mem_filter, Finset.mem_Ico] at hd
        obtain ⟨⟨d1, d2⟩, d3⟩ := hd
        rw [Finset.mem_insert, Finset.mem_image]
        by_cases hlast : d = hi - 1
        · exact Or.inl hlast
        · right
          refine ⟨d - lo, ?_, by omega⟩
          rw [Finset.mem_filter, Finset.mem_range]
          refine ⟨by omega, ?_⟩
          by_contra hw
          apply d3
          apply good_of hA hB (le_trans g1 (Nat.mul_le_mul_right _ d1)) g3 g4 (by omega : d + 1 < hi)
          have e : 2 * cutOff T * A * (d - lo) + (lo * (2 * cutOff T * A) + cutOff T * B + 2 * B) =
              2 * cutOff T * A * d + cutOff T * B + 2 * B := by
            obtain ⟨i, rfl⟩ := Nat.exists_eq_add_of_le d1
            rw [Nat.add_sub_cancel_left]; ring
          rwa [e] at hw
      refine le_trans (Finset.card_le_card hsub) (le_trans (Finset.card_insert_le _ _) ?_)
      refine Nat.add_le_add_right (le_trans Finset.card_image_le ?_) _
      rw [← hcount]
    have hsplit : ((Finset.Ico lo (10 ^ decimalDigits T)).filter (fun d => ¬ Good T ((k1 : Int) - 1000) d)).card ≤
        ((Finset.Ico lo hi).filter (fun d => ¬ Good T ((k1 : Int) - 1000) d)).card +
        ((Finset.Ico hi (10 ^ decimalDigits T)).filter (fun d => ¬ Good T ((k1 : Int) - 1000) d)).card := by
      rw [← Finset.Ico_union_Ico_eq_Ico g2.le hhi10, Finset.filter_union]
      exact Finset.card_union_le _ _
    split at h
    case isTrue he =>
      simp only [Option.some.injEq] at h
      rw [← he, Finset.Ico_self, Finset.filter_empty, Finset.card_empty] at hsplit
      rw [← he]
      omega
    case isFalse he =>
      have := ih _ _ _ h
      omega

open Classical in
theorem surviveCount_spec {T : FloatType} {k1 r : Nat} (h : surviveCount T k1 = some r) :
    ((Finset.Ico (10 ^ (decimalDigits T - 1)) (10 ^ decimalDigits T)).filter
      (fun d => ¬ Good T ((k1 : Int) - 1000) d)).card ≤ r := by
  unfold surviveCount at h
  rw [force_eq] at h
  simpa using surviveLoop_spec _ _ _ _ _ h

/-- Ten-thousandths of the numbers, for the decimal exponent `k1 - 1000`. -/
def surviveShareAt (T : FloatType) (k1 : Nat) : Nat :=
  match T with
  | .float => if k1 = 1003 then 2135 else if k1 = 1002 then 1828 else if k1 = 998 then 801 else
      if k1 = 997 ∨ k1 = 1004 then 542 else 426
  | .double => if k1 = 1002 then 2778 else if k1 = 1003 then 1340 else if k1 = 1004 then 269 else
      if 994 ≤ k1 ∧ k1 ≤ 1005 then 65 else 53

/-- The shares are not exceeded for `n` exponents from `k1` on. -/
def surviveOk (T : FloatType) : (n k1 : Nat) → Bool
  | 0, _ => true
  | n + 1, k1 =>
    (match surviveCount T k1 with
     | none => false
     | some c => decide (10000 * c < surviveShareAt T k1 * (9 * 10 ^ (decimalDigits T - 1)))) &&
    force (k1 + 1) fun k1 => surviveOk T n k1

theorem surviveOk_spec {T : FloatType} (n k1 : Nat) (h : surviveOk T n k1 = true) (j : Nat) (h1 : k1 ≤ j) (h2 : j < k1 + n) :
    ∃ c, surviveCount T j = some c ∧ 10000 * c < surviveShareAt T j * (9 * 10 ^ (decimalDigits T - 1)) := by
  induction n generalizing k1 with
  | zero => omega
  | succ n ih =>
    unfold surviveOk at h
    rw [Bool.and_eq_true, force_eq] at h
    rcases Nat.eq_or_lt_of_le h1 with rfl | h3
    · have h4 := h.1
      cases hc : surviveCount T k1 with
      | none => rw [hc] at h4; simp at h4
      | some c =>
        rw [hc] at h4
        exact ⟨c, rfl, by simpa using h4⟩
    · exact ih (k1 + 1) h.2 h3 (by omega)

end Floaxie
