import Verif.Prop.Largest

/-!
# How far the printed number is from the value (C78)

C01 bounds the distance by the rounding interval; here it is measured in units of
the last printed digit.
-/

namespace Floaxie
open Spec FloatType

/-- The gaps around a normal number: equal, or the lower one half as large at a power
of two. -/
theorem gaps_around {T : FloatType} {bits : Nat} (h : AboveLeastNormal T bits) :
    ∃ U G : ℚ, 0 < U ∧ stepAbove T bits = U ∧ midAbove T bits = mag T bits + U / 2 ∧
      midBelow T bits = mag T bits - G / 2 ∧
      ((fracField T bits ≠ 0 ∧ G = U) ∨ (fracField T bits = 0 ∧ G = U / 2)) := by
  obtain ⟨hf, hn⟩ := h
  rw [absPat_mod] at hn
  obtain ⟨m1, m2⟩ := mids_eq hf
  obtain ⟨g1, g2, g3, g4, -⟩ := normal_gaps hn
  have hu := emin_pos T
  have hU : (0 : ℚ) < ulpN T (absPat T bits) := by exact_mod_cast ulpN_pos _ _
  have hp0 : 0 < 2 ^ (T.p - 1) := by positivity
  have hfr : fracField T bits = absPat T bits % 2 ^ (T.p - 1) := by
    unfold fracField absPat
    rw [Nat.mod_mod_of_dvd]
    exact pow_dvd_pow 2 (by cases T <;> decide)
  have hG : (fracField T bits ≠ 0 ∧ ulpN T (absPat T bits - 1) = ulpN T (absPat T bits)) ∨
      (fracField T bits = 0 ∧ 2 * ulpN T (absPat T bits - 1) = ulpN T (absPat T bits)) := by
    rw [hfr]
    generalize absPat T bits = a at *
    have hd := Nat.div_add_mod a (2 ^ (T.p - 1))
    by_cases hz : a % 2 ^ (T.p - 1) = 0
    · right
      refine ⟨hz, ?_⟩
      rw [hz, add_zero] at hd
      generalize hq : a / 2 ^ (T.p - 1) = q at *
      have hq2 : 2 ≤ q := by
        by_contra hc
        have : q ≤ 1 := by omega
        have := Nat.mul_le_mul_left (2 ^ (T.p - 1)) this
        omega
      have e : (a - 1) / 2 ^ (T.p - 1) = q - 1 := by
        obtain ⟨r, rfl⟩ : ∃ r, q = r + 1 := ⟨q - 1, by omega⟩
        rw [Nat.mul_add, mul_one] at hd
        rw [Nat.div_eq_iff hp0]
        rw [Nat.add_sub_cancel, mul_comm]
        omega
      unfold ulpN
      rw [e, hq, ← pow_succ']
      congr 1
      omega
    · left
      refine ⟨hz, ?_⟩
      have e : (a - 1) / 2 ^ (T.p - 1) = a / 2 ^ (T.p - 1) := by
        have := Nat.mod_lt a hp0
        rw [Nat.div_eq_iff hp0, mul_comm]
        omega
      unfold ulpN
      rw [e]
  have g1' : (N T (absPat T bits) : ℚ) = N T (absPat T bits - 1) + ulpN T (absPat T bits - 1) := by
    exact_mod_cast g1
  have g2' : (N T (absPat T bits + 1) : ℚ) = N T (absPat T bits) + ulpN T (absPat T bits) := by
    exact_mod_cast g2
  refine ⟨ulpN T (absPat T bits) * 2 ^ emin T, ulpN T (absPat T bits - 1) * 2 ^ emin T,
    by positivity, ?_, ?_, ?_, ?_⟩
  · rw [stepAbove_eq hf, g2']; ring
  · rw [m2, mag_eq, g2']; ring
  · rw [m1, mag_eq, g1']; ring
  · rcases hG with ⟨a, b⟩ | ⟨a, b⟩
    · exact Or.inl ⟨a, by rw [b]⟩
    · refine Or.inr ⟨a, ?_⟩
      rw [← b]; push_cast; ring

/-- The gaps around any value other than zero. -/
theorem gaps_any {T : FloatType} {bits : Nat} (hf : IsFinite T bits) (h0 : value T bits ≠ 0) :
    ∃ U G : ℚ, 0 < U ∧ stepAbove T bits = U ∧ midAbove T bits = mag T bits + U / 2 ∧
      midBelow T bits = mag T bits - G / 2 ∧
      (G = U ∨ (fracField T bits = 0 ∧ G = U / 2)) ∧
      (absPat T bits ≤ 2 ^ (T.p - 1) → U = 2 ^ emin T) := by
  have ha := abs_ne_zero_of_value h0
  rcases lt_or_ge (2 ^ (T.p - 1)) (absPat T bits) with hn | hn
  · obtain ⟨U, G, a, b, c, d, e⟩ := gaps_around ⟨hf, hn⟩
    refine ⟨U, G, a, b, c, d, ?_, fun h => absurd h (not_le.mpr hn)⟩
    rcases e with e | e
    · exact Or.inl e.2
    · exact Or.inr e
  · obtain ⟨m1, m2⟩ := mids_eq hf
    have hN : ∀ a, a ≤ 2 ^ (T.p - 1) + 1 → N T a = a := by
      intro a ha
      unfold N
      have h2 : a < 2 * 2 ^ (T.p - 1) := by
        have : 2 ≤ 2 ^ (T.p - 1) := by cases T <;> decide
        omega
      have hp0 : 0 < 2 ^ (T.p - 1) := by positivity
      have hlt : a / 2 ^ (T.p - 1) < 2 := Nat.div_lt_of_lt_mul (by rw [Nat.mul_comm]; exact h2)
      have hd := Nat.div_add_mod a (2 ^ (T.p - 1))
      generalize hq : a / 2 ^ (T.p - 1) = q at *
      rcases (show q = 0 ∨ q = 1 by omega) with rfl | rfl <;> simp <;> omega
    have e0 := hN (absPat T bits) (by omega)
    have e1 := hN (absPat T bits - 1) (by omega)
    have e2 := hN (absPat T bits + 1) (by omega)
    have hc : ((absPat T bits - 1 : ℕ) : ℚ) = absPat T bits - 1 := by
      rw [Nat.cast_sub (by omega)]; norm_num
    refine ⟨2 ^ emin T, 2 ^ emin T, emin_pos T, ?_, ?_, ?_, Or.inl rfl, fun _ => rfl⟩
    · rw [stepAbove_eq hf, e0, e2]; push_cast; ring
    · rw [m2, mag_eq, e0, e2]; push_cast; ring
    · rw [m1, mag_eq, e0, e1, hc]; ring

/-- By how many units of the last digit the printed number may be too small. -/
def unitsBelow : FloatType → ℚ
  | .float => 3 / 5
  | .double => 13 / 25

/-- How the least normal number is printed. -/
theorem leastNormal_text (T : FloatType) :
    ∃ (ds : List (Fin 10)) (e : Int), ds.length ≤ 17 ∧
      (grisu2 T (2 ^ (T.p - 1)) (List.replicate 17 0) 0).toOption.map (fun r => (r.1.take r.2.1, r.2.2)) =
        some (ds.map digitChar, e) ∧
      mag T (2 ^ (T.p - 1)) - digitsVal ds * 10 ^ e < unitsBelow T * 10 ^ e ∧
      digitsVal ds * 10 ^ e - mag T (2 ^ (T.p - 1)) < 23 / 5 * 10 ^ e := by
  cases T
  · exact ⟨[1,1,7,5,4,9,4,4], -45, by decide, by decide +kernel, by decide +kernel, by decide +kernel⟩
  · exact ⟨[2,2,2,5,0,7,3,8,5,8,5,0,7,2,0,1,6], -324, by decide, by decide +kernel, by decide +kernel, by decide +kernel⟩

/-- A value so large is not one of the smallest subnormal ones. -/
theorem absPat_ge_of_mag {T : FloatType} {bits : Nat} (habs : |value T bits| = mag T bits)
    (hm : 2 ^ (T.W / 2) * mag T 1 ≤ |value T bits|) : 2 ^ (T.W / 2) ≤ absPat T bits := by
  rw [habs, mag_eq, mag_eq] at hm
  have hN1 : N T (absPat T 1) = 1 := by cases T <;> decide
  rw [hN1, Nat.cast_one, one_mul] at hm
  have h1 : ((2 ^ (T.W / 2) : ℕ) : ℚ) ≤ N T (absPat T bits) := by
    have := le_of_mul_le_mul_right hm (emin_pos T)
    exact_mod_cast this
  have h2 : 2 ^ (T.W / 2) ≤ N T (absPat T bits) := by exact_mod_cast h1
  have h3 : N T (2 ^ (T.W / 2)) = 2 ^ (T.W / 2) := by cases T <;> decide
  by_contra hc
  have := N_lt (T := T) (not_le.mp hc)
  omega

/-- **C78.** For every finite value other than zero: the printed number is less
than 0.6 units of its last digit below the magnitude of the value (0.52 for `double`).  If that
magnitude is at least `2^32` (`float`: `2^16`) times the least positive one - all normal numbers and the larger subnormal ones - or
if the text has more than 10 (`float`: 5) significant digits, it is less than 4.6 units above it - 6.2 units if the value is a
(normal) power of two. -/
theorem C78_distance (T : FloatType) (bits : Nat) (hf : IsFinite T bits) (h0 : value T bits ≠ 0) :
    ∃ (n : Numeral) (ds : List (Fin 10)) (k : Int), Prints T bits n.text ∧ SignificantDigits n ds k ∧
      |value T bits| - n.absValue < unitsBelow T * 10 ^ k ∧
      (2 ^ (T.W / 2) * mag T 1 ≤ |value T bits| ∨ fewDigits T < ds.length →
        n.absValue - |value T bits| < (if fracField T bits = 0 then 31 / 5 else 23 / 5) * 10 ^ k) := by
  have ha := abs_ne_zero_of_value h0
  have hm0 : 0 ≤ mag T bits := by rw [mag_eq]; have := emin_pos T; positivity
  have habs : |value T bits| = mag T bits := by
    unfold value; split_ifs
    · rw [abs_neg, abs_of_nonneg hm0]
    · rw [abs_of_nonneg hm0]
  obtain ⟨U, G, hU, e1, e2, e3, hG, hG'⟩ := gaps_any hf h0
  have hmar : U / margin T ≤ U / 63 := by
    apply div_le_div_of_nonneg_left hU.le (by norm_num)
    cases T <;> norm_num [margin]
  have hmar0 : 0 < U / margin T := by
    apply div_pos hU
    cases T <;> norm_num [margin]
  have hGU : U / 2 ≤ G ∧ G ≤ U := by rcases hG with rfl | ⟨-, rfl⟩ <;> constructor <;> linarith
  by_cases hl : absPat T bits = 2 ^ (T.p - 1)
  · obtain ⟨ds, k, b1, ⟨hne, hh, hla⟩, b3, b4, -, -, hg, b5⟩ := ftoa_main'' T (absPat T bits) (absPat_lt_posInf hf) ha
    have hval : (fmtNumeral (decide (signBit T bits = 1)) ds k).absValue = digitsVal ds * 10 ^ k :=
      fmt_absValue _ ds k hne (fmtK b1 hne b4)
    obtain ⟨ds0, e, q1, q2, q3, q4⟩ := leastNormal_text T
    have hlen : ds.length ≤ 17 := b1.trans (by cases T <;> decide)
    have hg' := hg (List.replicate 17 0) (by rw [List.length_replicate]; exact hlen)
    rw [hl] at hg'
    rw [hg'] at q2
    have q2' := Option.some.inj q2
    rw [Prod.mk.injEq] at q2'
    obtain ⟨q5, q6⟩ := q2'
    dsimp only at q5 q6
    subst q6
    rw [List.take_append_of_le_length (by simp), List.take_of_length_le (by simp)] at q5
    have := map_digitChar_inj q5
    subst this
    have hmag : mag T bits = mag T (2 ^ (T.p - 1)) := by
      rw [mag_eq, mag_eq, ← hl, absPat_idem]
    refine ⟨_, ds, k, b5 bits hf.1 rfl, ⟨hne, ?_, ?_, fmt_digits _ ds k hne, hval⟩, ?_, fun _ => ?_⟩
    · rw [List.head?_eq_some_head hne]; simpa using hh
    · rw [List.getLast?_eq_some_getLast hne]; simpa using hla
    · rw [hval, habs, hmag]; exact q3
    · rw [hval, habs, hmag]
      have hk0 : (0 : ℚ) < 10 ^ k := by positivity
      split_ifs <;> linarith
  · obtain ⟨A, B, ds, k, a1, a2, a3, a4, a5, a6, b1, ⟨hne, hh, hla⟩, b3, b4, b5⟩ := brief_main T bits hf ha hl
    have hval : (fmtNumeral (decide (signBit T bits = 1)) ds k).absValue = digitsVal ds * 10 ^ k :=
      fmt_absValue _ ds k hne (fmtK b1 hne b4)
    have hm := identifies_mids (absPat_lt_posInf hf) ha b3
    rw [← (mids_eq hf).1, ← (mids_eq hf).2, e3, e2] at hm
    obtain ⟨hm1, hm2⟩ := hm
    have hsafe : ∀ y, mag T bits - G / 2 + U / margin T ≤ y → y ≤ mag T bits + U / 2 - U / margin T → A ≤ y ∧ y ≤ B := by
      intro y h1 h2
      refine a4 y ⟨?_, ?_⟩
      · rw [e1, e3]; exact h1
      · rw [e1, e2]; exact h2
    have hk0 : (0 : ℚ) < 10 ^ k := by positivity
    push_cast at a6
    rw [add_mul, one_mul] at a6
    have htop : mag T bits + U / 2 - U / margin T < digitsVal ds * 10 ^ k + 10 ^ k :=
      lt_of_le_of_lt (hsafe _ (by linarith) le_rfl).2 a6
    refine ⟨_, ds, k, b5, ⟨hne, ?_, ?_, fmt_digits _ ds k hne, hval⟩, ?_, ?_⟩
    · rw [List.head?_eq_some_head hne]; simpa using hh
    · rw [List.getLast?_eq_some_getLast hne]; simpa using hla
    · rw [hval, habs]
      generalize (digitsVal ds : ℚ) * 10 ^ k = P at *
      generalize (10 : ℚ) ^ k = u at *
      generalize mag T bits = v at *
      clear * - htop hm1 hGU hU
      cases T <;> simp only [margin, unitsBelow] at * <;> norm_num at * <;> linarith
    intro hor
    rw [hval, habs]
    -- the multiple of ten units below the printed number
    have hnot := a5 (hor.imp_left (absPat_ge_of_mag habs)) (digitsVal ds / 10) (k + 1) (by omega)
    have et : ((digitsVal ds / 10 : ℕ) : ℚ) * 10 ^ (k + 1) = ((10 * (digitsVal ds / 10) : ℕ) : ℚ) * 10 ^ k := by
      rw [zpow_add₀ (by norm_num)]; push_cast; ring
    rw [et] at hnot
    have d1 : ((10 * (digitsVal ds / 10) : ℕ) : ℚ) ≤ digitsVal ds := by
      exact_mod_cast Nat.mul_div_le _ _
    have d2 : (digitsVal ds : ℚ) ≤ (10 * (digitsVal ds / 10) : ℕ) + 9 := by
      have : digitsVal ds ≤ 10 * (digitsVal ds / 10) + 9 := by omega
      exact_mod_cast this
    have d1' := mul_le_mul_of_nonneg_right d1 hk0.le
    have d2' := mul_le_mul_of_nonneg_right d2 hk0.le
    rw [add_mul] at d2'
    generalize ((10 * (digitsVal ds / 10) : ℕ) : ℚ) * 10 ^ k = t at *
    generalize (digitsVal ds : ℚ) * 10 ^ k = P at *
    generalize (10 : ℚ) ^ k = u at *
    generalize mag T bits = v at *
    have htA : t < A := by
      by_contra hc
      exact hnot ⟨not_lt.mp hc, le_trans d1' a3⟩
    have hbot : t < v - G / 2 + U / margin T := by
      by_contra hc
      have hB := (hsafe _ (by linarith) le_rfl).1
      rcases le_total t (v + U / 2 - U / margin T) with h1 | h1
      · have := (hsafe t (not_lt.mp hc) h1).1
        linarith
      · linarith
    clear * - hbot hm2 d2' hG hU hk0
    cases T <;> simp only [margin] at * <;> norm_num at * <;>
      rcases hG with rfl | ⟨f, rfl⟩ <;> first | (rw [if_pos f]; linarith) | (split_ifs <;> linarith)

/-- **C78, the bounds are nearly attained**: a `float` is printed 4.5 units of the last
digit too large, a `double` that is a power of two 5.88 units; another `double` is printed
0.49 units too small. -/
theorem C78_sharp :
    (Prints .float 0x3752c817 (chars "0.0000125635629") ∧
      (125635629 / 10 ^ 13 : ℚ) - value .float 0x3752c817 > (45 / 10) / 10 ^ 13) ∧
    (Prints .double 0x2a80000000000000 (chars "5.5809931214954839e-104") ∧
      (55809931214954839 / 10 ^ 120 : ℚ) - value .double 0x2a80000000000000 > (588 / 100) / 10 ^ 120) ∧
    (Prints .double 0x6187134a5096ad84 (chars "6.488376412079761e161") ∧
      value .double 0x6187134a5096ad84 - (6488376412079761 * 10 ^ 146 : ℚ) > (49 / 100) * 10 ^ 146) :=
  ⟨⟨prints_eval (by decide) (by decide +kernel), by decide +kernel⟩,
    ⟨prints_eval (by decide) (by decide +kernel), by decide +kernel⟩,
    prints_eval (by decide) (by decide +kernel), by decide +kernel⟩

/-- **C78, the hypothesis is needed**: the least `double` is printed as 7.41098468e-324,
more than 10^8 units of the last digit away from its value. -/
theorem C78_subnormal :
    Prints .double 1 (chars "7.41098468e-324") ∧
      (741098468 / 10 ^ 332 : ℚ) - value .double 1 > 10 ^ 8 / 10 ^ 332 :=
  ⟨prints_eval (by decide) (by decide +kernel), by decide +kernel⟩

/-- The hypotheses are met: by the least normal numbers, by the numbers of `C78_sharp`, and by a subnormal number of 20 bits, which
therefore is printed less than 4.6 units too large. -/
example (T : FloatType) := C78_distance T (2 ^ (T.p - 1)) (isFinite_of_lt (by cases T <;> decide))
  (by rw [Ne, value_zero_iff]; cases T <;> decide)

example : ∃ (n : Numeral) (ds : List (Fin 10)) (k : Int), Prints .float 0xfedcb n.text ∧ SignificantDigits n ds k ∧
    n.absValue - |value .float 0xfedcb| < 23 / 5 * 10 ^ k := by
  obtain ⟨n, ds, k, h1, h2, -, h3⟩ := C78_distance .float 0xfedcb (isFinite_of_lt (by decide)) (by rw [Ne, value_zero_iff]; decide)
  have h4 := h3 (Or.inl (by decide +kernel))
  rw [if_neg (by decide)] at h4
  exact ⟨n, ds, k, h1, h2, h4⟩

example : IsFinite .float 0x3752c817 ∧ value .float 0x3752c817 ≠ 0 ∧ fracField .float 0x3752c817 ≠ 0 ∧
    2 ^ (FloatType.float.W / 2) * mag .float 1 ≤ |value .float 0x3752c817| :=
  ⟨isFinite_of_lt (by decide), by rw [Ne, value_zero_iff]; decide, by decide, by decide +kernel⟩

end Floaxie
