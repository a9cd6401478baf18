import Verif.Proof.ParseDigits
import Verif.Spec.Input
import Mathlib.Tactic.FieldSimp
import Mathlib.Tactic.Positivity

/-! # What the digits read say about the number -/

namespace Floaxie

open Spec FloatType

/-- The value of the digits and the point, without sign and exponent part. -/
def mantVal (n : Numeral) : ℚ := (digitsVal (allDigits n) : ℚ) * 10 ^ (-(n.fracDigits.length : Int))

theorem absValue_eq (n : Numeral) : n.absValue = mantVal n * 10 ^ n.expValue := by
  unfold Numeral.absValue mantVal allDigits
  rw [mul_assoc, ← zpow_add₀ (by norm_num)]
  congr 2; ring

theorem mantVal_split {n : Numeral} {z : Nat} {ds tail : List (Fin 10)}
    (h : allDigits n = List.replicate z 0 ++ (ds ++ tail)) :
    mantVal n = ((digitsVal ds : ℚ) + digitsVal tail / 10 ^ tail.length) *
      10 ^ ((tail.length : Int) - n.fracDigits.length) := by
  unfold mantVal
  rw [h, digitsVal_append, digitsVal_replicate_zero, zero_mul, zero_add, digitsVal_append,
    sub_eq_add_neg, zpow_add₀ (by norm_num), zpow_natCast]
  push_cast
  field_simp

theorem digitsVal_head {d : Fin 10} {ds : List (Fin 10)} (h : d ≠ 0) :
    10 ^ ds.length ≤ digitsVal (d :: ds) := by
  rw [digitsVal_cons]
  have : 1 ≤ d.val := Nat.one_le_iff_ne_zero.mpr (fun h' => h (Fin.ext h'))
  nlinarith [Nat.zero_le (digitsVal ds), show 0 < 10 ^ ds.length by positivity]

theorem digitsVal_all_zero {l : List (Fin 10)} (h : ∀ d ∈ l, d = 0) : digitsVal l = 0 := by
  rw [(nil_or_head l).mp h, digitsVal_replicate_zero]

theorem digitsVal_eq_zero : ∀ {l : List (Fin 10)}, digitsVal l = 0 → ∀ d ∈ l, d = 0 := by
  intro l
  induction l with
  | nil => simp
  | cons a l ih =>
    intro h d hd
    rw [digitsVal_cons] at h
    have h1 : a.val * 10 ^ l.length = 0 := by omega
    have h2 : digitsVal l = 0 := by omega
    rcases List.mem_cons.mp hd with rfl | hd
    · rcases Nat.mul_eq_zero.mp h1 with h1 | h1
      · exact Fin.ext h1
      · have : 0 < 10 ^ l.length := by positivity
        omega
    · exact ih h2 d hd

theorem Reads.lt {κ : Nat} {n : Numeral} {P : Nat} {K : Int} {frac : Nat} (h : Reads κ n P K frac) :
    P < 10 ^ κ := by
  rcases h with ⟨-, rfl, -⟩ | ⟨z, ds, tail, -, -, h3, rfl, -⟩
  · positivity
  · exact lt_of_lt_of_le (digitsVal_lt ds) (Nat.pow_le_pow_right (by norm_num) h3)

theorem Reads.bounds {κ : Nat} {n : Numeral} {P : Nat} {K : Int} {frac : Nat} (h : Reads κ n P K frac) :
    (P : ℚ) * 10 ^ K ≤ mantVal n ∧ mantVal n < (P + 1) * 10 ^ K := by
  rcases h with ⟨h1, rfl, rfl, -⟩ | ⟨z, ds, tail, h1, -, h3, rfl, rfl, -⟩
  · unfold mantVal
    rw [digitsVal_all_zero h1]; norm_num
  · rw [mantVal_split h1]
    have hp : (0 : ℚ) < 10 ^ ((tail.length : Int) - n.fracDigits.length) := by positivity
    have h2 : (0 : ℚ) ≤ digitsVal tail / 10 ^ tail.length := by positivity
    have h4 : (digitsVal tail : ℚ) / 10 ^ tail.length < 1 := by
      rw [div_lt_one (by positivity)]; exact_mod_cast digitsVal_lt tail
    constructor
    · apply mul_le_mul_of_nonneg_right _ hp.le; linarith
    · apply mul_lt_mul_of_pos_right _ hp; linarith

theorem Reads.zero_iff {κ : Nat} {n : Numeral} {P : Nat} {K : Int} {frac : Nat} (h : Reads κ n P K frac) :
    P = 0 ↔ mantVal n = 0 := by
  rcases h with ⟨h1, rfl, rfl, -⟩ | ⟨z, ds, tail, h1, ⟨d, ds', rfl, hd⟩, h3, rfl, rfl, -⟩
  · unfold mantVal
    rw [digitsVal_all_zero h1]; norm_num
  · have h2 := digitsVal_head (ds := ds') hd
    have h4 : 0 < 10 ^ ds'.length := by positivity
    rw [mantVal_split h1]
    have h5 : (0 : ℚ) < digitsVal (d :: ds') := by exact_mod_cast (by omega : 0 < digitsVal (d :: ds'))
    have h6 : (0 : ℚ) < ((digitsVal (d :: ds') : ℚ) + digitsVal tail / 10 ^ tail.length) *
      10 ^ ((tail.length : Int) - n.fracDigits.length) := by positivity
    constructor
    · intro h; omega
    · intro h; exact absurd h h6.ne'

theorem getLast_zero_dvd {ds : List (Fin 10)} (h : 10 ∣ digitsVal ds) (hne : ds ≠ []) :
    ds.getLast? = some 0 := by
  obtain ⟨l, a, rfl⟩ : ∃ l a, ds = l ++ [a] := ⟨ds.dropLast, ds.getLast hne, (List.dropLast_append_getLast hne).symm⟩
  rw [digitsVal_append] at h
  simp only [List.length_singleton, pow_one] at h
  rw [show digitsVal [a] = a.val by simp [digitsVal]] at h
  have : a.val = 0 := by have := a.isLt; omega
  simp [Fin.ext_iff, this]

/-- Short numbers are read exactly, and `K` is the exponent of the last non-zero
digit. -/
theorem Reads.short {κ : Nat} (hκ : 0 < κ) {n : Numeral} {P : Nat} {K : Int} {frac : Nat} (h : Reads κ n P K frac)
    (hs : Short κ (mantVal n)) : mantVal n = P * 10 ^ K ∧ frac = 0 ∧ (P ≠ 0 → ¬ 10 ∣ P) := by
  rcases h with ⟨h1, rfl, rfl, h4⟩ | ⟨z, ds, tail, h1, ⟨d, ds', rfl, hd⟩, h3, rfl, rfl, h7⟩
  · refine ⟨?_, h4, by simp⟩
    unfold mantVal
    rw [digitsVal_all_zero h1]; norm_num
  · rw [mantVal_split h1] at hs ⊢
    rcases h7 with ⟨k1, k2, k3⟩ | ⟨k1, k2, -⟩
    · refine ⟨?_, k2, fun _ h10 => k3 (getLast_zero_dvd h10 (by simp))⟩
      rw [digitsVal_all_zero k1]; simp
    · exfalso
      obtain ⟨m, k, hm, he⟩ := hs
      have ht : 0 < digitsVal tail := by
        by_contra hc
        exact k2 (digitsVal_eq_zero (by omega))
      have hP := digitsVal_head (ds := ds') hd
      set P := digitsVal (d :: ds') with hPdef
      set L := tail.length with hL
      set t := digitsVal tail with htdef
      have htl : t < 10 ^ L := digitsVal_lt tail
      -- D = m * 10^k'
      have hD : ((P * 10 ^ L + t : Nat) : ℚ) = m * 10 ^ (k + n.fracDigits.length) := by
        have h10 : (10 : ℚ) ^ L ≠ 0 := by positivity
        have hf10 : (10 : ℚ) ^ n.fracDigits.length ≠ 0 := by positivity
        rw [zpow_sub₀ (by norm_num), zpow_natCast, zpow_natCast] at he
        rw [zpow_add₀ (by norm_num), zpow_natCast, ← mul_assoc, ← he]
        push_cast
        field_simp
      have hcons : (d :: ds').length = ds'.length + 1 := rfl
      rcases le_or_gt (L : Int) (k + n.fracDigits.length) with hk | hk
      · obtain ⟨j, hj⟩ : ∃ j : Nat, k + (n.fracDigits.length : Int) = (L + j : Nat) :=
          ⟨(k + n.fracDigits.length - L).toNat, by omega⟩
        rw [hj, zpow_natCast, pow_add] at hD
        have hD' : P * 10 ^ L + t = m * (10 ^ L * 10 ^ j) := by exact_mod_cast hD
        have h2 : 10 ^ L ∣ P * 10 ^ L + t := by rw [hD']; exact ⟨m * 10 ^ j, by ring⟩
        have h3 : 10 ^ L ∣ t := (Nat.dvd_add_right ⟨P, by ring⟩).mp h2
        have := Nat.le_of_dvd ht h3
        omega
      · have h1 : (m : ℚ) * 10 ^ (k + n.fracDigits.length) < 10 ^ κ * 10 ^ ((L : Int) - 1) := by
          have hm' : (m : ℚ) < 10 ^ κ := by exact_mod_cast hm
          have hz : (10 : ℚ) ^ (k + n.fracDigits.length) ≤ 10 ^ ((L : Int) - 1) :=
            zpow_le_zpow_right₀ (by norm_num) (by omega)
          have hz0 : (0 : ℚ) < 10 ^ (k + n.fracDigits.length) := by positivity
          have hm0 : (0 : ℚ) ≤ m := by positivity
          calc (m : ℚ) * 10 ^ (k + n.fracDigits.length) < 10 ^ κ * 10 ^ (k + n.fracDigits.length) :=
                mul_lt_mul_of_pos_right hm' hz0
            _ ≤ _ := mul_le_mul_of_nonneg_left hz (by positivity)
        rw [← hD] at h1
        have h2 : ((10 : ℚ) ^ κ * 10 ^ ((L : Int) - 1)) = 10 ^ (κ - 1) * 10 ^ L := by
          obtain ⟨j, rfl⟩ : ∃ j, κ = j + 1 := ⟨κ - 1, by omega⟩
          rw [zpow_sub₀ (by norm_num), zpow_natCast]
          rw [Nat.add_sub_cancel, pow_succ]; field_simp
        rw [h2] at h1
        have h4 : P * 10 ^ L + t < 10 ^ (κ - 1) * 10 ^ L := by exact_mod_cast h1
        have h5 : 10 ^ (κ - 1) ≤ P := by
          rw [show κ - 1 = ds'.length by omega]; exact hP
        have := Nat.mul_le_mul_right (10 ^ L) h5
        omega

/-- In general: the fraction describes the discarded digits up to a tenth. -/
theorem Reads.approx {κ : Nat} {n : Numeral} {P : Nat} {K : Int} {frac : Nat} (h : Reads κ n P K frac)  :
    ∃ (t : ℚ) (tv : Nat), mantVal n = (P + t) * 10 ^ K ∧ 0 ≤ t ∧ t < 1 ∧ tv < 10 ^ 4 ∧
      |t - tv / 10 ^ 4| < 1 / 10 ∧ frac = convertNumerator 4 7 tv % 256 ∧
      ((t = 0 ∧ frac = 0 ∧ tv = 0) ∨ 10 ^ (κ - 1) ≤ P) := by
  rcases h with ⟨h1, rfl, rfl, h4⟩ | ⟨z, ds, tail, h1, ⟨d, ds', rfl, hd⟩, h3, rfl, rfl, h7⟩
  · refine ⟨0, 0, ?_, le_refl _, by norm_num, by norm_num, by norm_num, by rw [h4]; decide, Or.inl ⟨rfl, h4, rfl⟩⟩
    unfold mantVal
    rw [digitsVal_all_zero h1]; norm_num
  · rw [mantVal_split h1]
    have hlt : (digitsVal tail : ℚ) / 10 ^ tail.length < 1 := by
      rw [div_lt_one (by positivity)]; exact_mod_cast digitsVal_lt tail
    rcases h7 with ⟨k1, k2, k3⟩ | ⟨k1, k2, a, l, r, rfl, hr, hf⟩
    · refine ⟨0, 0, ?_, le_refl _, by norm_num, by norm_num, by norm_num, by rw [k2]; decide, Or.inl ⟨rfl, k2, rfl⟩⟩
      rw [digitsVal_all_zero k1]; simp
    · have ha := a.isLt
      refine ⟨_, a.val * 1000 + r, rfl, by positivity, hlt, by norm_num; omega, ?_, hf, Or.inr ?_⟩
      · have hl := digitsVal_lt l
        have e : (digitsVal (a :: l) : ℚ) / 10 ^ (a :: l).length =
            a.val / 10 + digitsVal l / (10 * 10 ^ l.length) := by
          rw [digitsVal_cons, List.length_cons, pow_succ]
          push_cast
          field_simp
        rw [e]
        have h8 : (0 : ℚ) ≤ digitsVal l / (10 * 10 ^ l.length) := by positivity
        have h9 : (digitsVal l : ℚ) / (10 * 10 ^ l.length) < 1 / 10 := by
          rw [div_lt_div_iff₀ (by positivity) (by norm_num)]
          have : (digitsVal l : ℚ) < 10 ^ l.length := by exact_mod_cast hl
          linarith
        have h10 : (r : ℚ) < 1000 := by exact_mod_cast hr
        have h11 : (0 : ℚ) ≤ r := by positivity
        push_cast
        rw [abs_lt]
        constructor <;> linarith
      · rw [show κ - 1 = ds'.length by simp at k1; omega]
        exact digitsVal_head hd

end Floaxie
