import Verif.Proof.OneDigitRead
import Verif.Prop.OneDigit

/-!
# Reading the numbers of one decimal digit (C99)

`0.1`, `3000`, `7e-300`: the numbers `± d * 10^j` with one significant digit, however they are
written.  C20 leaves open which of them are handed to the fallback, and whether the carry may be lost
(C21); here both are answered completely.
-/

namespace Floaxie

open FloatType Spec

theorem one_lt_posInf (T : FloatType) : 1 < posInf T := by cases T <;> decide

theorem value_pat_one (T : FloatType) : value T 1 = 2 ^ emin T := by
  rw [value_of_lt (one_lt_posInf T), show N T 1 = 1 by cases T <;> decide, Nat.cast_one, one_mul]

theorem value_pat_zero (T : FloatType) : value T 0 = 0 := by
  rw [value_of_lt (by have := one_lt_posInf T; omega), show N T 0 = 0 by cases T <;> decide, Nat.cast_zero, zero_mul]

/-- **C99.** Let a numeral stand for a number of one significant decimal digit in the range of
the type, from the least subnormal number to the overflow limit.  `atof` asks the fallback if it is one
of the 3 (`float`) / 13 (`double`) numbers of `oneDigitAsked`; all others it reads itself, consuming all
of the numeral, with status success, and correctly rounded. -/
theorem C99_one_digit_read (T : FloatType) (fb : Fallback) (errno : Nat) (mem : List Nat) (str : Nat) (n : Numeral)
    (h : NumeralAt mem str n) (d : Nat) (j : Int) (hd : 1 ≤ d) (hd9 : d ≤ 9) (hx : |n.value| = d * 10 ^ j)
    (h1 : 2 ^ emin T ≤ |n.value|) (h2 : |n.value| < overflowThreshold T) :
    ∃ r, atof T fb errno mem str = .ok r ∧
      ((d, j) ∈ oneDigitAsked T → Delegated T fb errno mem str r) ∧
      ((d, j) ∉ oneDigitAsked T → RoundsTo T n.value r.value ∧ Converted errno str n r.value r) := by
  rw [abs_value_num] at hx h1 h2
  obtain ⟨a, acc, k1, k2, k3⟩ := krosh_oneDigit h hd hd9 hx h1 h2
  obtain ⟨r, r1, r2, r3⟩ := atof_numeral (fb := fb) (errno := errno) h k1
  refine ⟨r, r1, fun hm => r3 (k2.mpr hm), fun hm => ?_⟩
  have hacc : acc = true := by
    cases acc
    · exact absurd (k2.mp rfl) hm
    · rfl
  obtain ⟨a1, a2⟩ := k3 hacc
  have r4 := r2 hacc
  have hrv : r.value = if n.isNeg then neg T a else a := by rw [r4]
  rw [← hrv] at r4
  refine ⟨?_, r4⟩
  have hu := emin_pos T
  have ha0 : a ≠ 0 := by
    rintro rfl
    have q1 := a2.2.2 1 (isFinite_of_lt (one_lt_posInf T)) (by rw [value_pat_zero, value_pat_one]; exact hu.ne')
    rw [value_pat_zero, value_pat_one, sub_zero, abs_of_nonneg (by linarith), abs_of_nonneg (by linarith)] at q1
    linarith
  have hv0 : value T a ≠ 0 := by rw [Ne, value_zero_iff, absPat_of_lt a1]; exact ha0
  rw [hrv]
  unfold Numeral.value
  cases n.isNeg
  · exact identifies_roundsTo a2 hv0
  · refine identifies_roundsTo (identifies_neg a2) ?_
    rw [if_pos rfl, value_neg (lt_posInf_lt a1)]; exact neg_ne_zero.mpr hv0

/-- **C99, with a correct fallback** all of them are read correctly: no carry is lost here. -/
theorem C99_correctly_rounded (T : FloatType) (fb : Fallback) (errno : Nat) (mem : List Nat) (str : Nat) (n : Numeral)
    (h : NumeralAt mem str n) (d : Nat) (j : Int) (hd : 1 ≤ d) (hd9 : d ≤ 9) (hx : |n.value| = d * 10 ^ j)
    (h1 : 2 ^ emin T ≤ |n.value|) (h2 : |n.value| < overflowThreshold T) (hfb : FallbackReads T fb errno mem str n) :
    ∃ r, atof T fb errno mem str = .ok r ∧ RoundsTo T n.value r.value ∧ r.status = .success ∧
      r.strEnd = str + n.text.length := by
  obtain ⟨r, r1, r2, r3⟩ := C99_one_digit_read T fb errno mem str n h d j hd hd9 hx h1 h2
  refine ⟨r, r1, ?_⟩
  by_cases hm : (d, j) ∈ oneDigitAsked T
  · obtain ⟨d0, d1, d2, d3, d4⟩ := r2 hm
    replace hfb := hfb r r1 d0
    rw [d3, if_pos hfb.2.2] at d4
    rw [d1, d2]
    exact ⟨hfb.1, d4, hfb.2.1⟩
  · obtain ⟨q1, q2⟩ := r3 hm
    refine ⟨q1, ?_, ?_⟩ <;> rw [q2]

/-- **C99, read and printed.** If the fallback is not asked, and the value read is a normal number
above the least one, it is printed as a numeral of the same value as the one read; for `float` this excludes
the five numbers 1e-22, 2e-22, 3e-23, 5e-23 and 6e-23 (see C81). -/
theorem C99_read_printed (T : FloatType) (fb : Fallback) (errno : Nat) (mem : List Nat) (str : Nat) (n : Numeral)
    (h : NumeralAt mem str n) (d : Nat) (j : Int) (hd : 1 ≤ d) (hd9 : d ≤ 9) (hx : |n.value| = d * 10 ^ j)
    (h2 : |n.value| < overflowThreshold T) (hm : (d, j) ∉ oneDigitAsked T)
    (hl : T = .float → (d, j) ∉ [(1, -22), (2, -22), (3, -23), (5, -23), (6, -23)])
    (b : Nat) (hb : RoundsTo T n.value b) (hn : AboveLeastNormal T b) :
    atof T fb errno mem str = .ok ⟨b, .success, str + n.text.length, errno, false⟩ ∧
      ∃ n' : Numeral, Prints T b n'.text ∧ n'.value = n.value := by
  have hv0 : n.value ≠ 0 := by
    have : (1 : ℚ) ≤ d := by exact_mod_cast hd
    have : (0 : ℚ) < d * 10 ^ j := by positivity
    intro h; rw [h, abs_zero] at hx; linarith
  have h1 : 2 ^ emin T ≤ |n.value| := by
    have hra := roundsTo_magnitude hv0 hb
    have hc := absPat_lt_posInf hn.1
    have hn2 := hn.2
    rw [absPat_mod] at hn2
    have hp := Nat.two_pow_pos (T.p - 1)
    have e1 : N T 1 = 1 := by cases T <;> decide
    have q := roundsTo_le hra (isFinite_of_lt (one_lt_posInf T))
    rw [value_of_lt hc, value_pat_one] at q
    have hN : (N T 1 : ℚ) < N T (absPat T b) := by exact_mod_cast N_lt (T := T) (by
      have : 1 < 2 ^ (T.p - 1) := by cases T <;> decide
      omega)
    rw [e1, Nat.cast_one] at hN
    have hu := emin_pos T
    by_contra hcon
    push Not at hcon
    generalize |n.value| = y at *
    have hN2 := mul_lt_mul_of_pos_right hN hu
    rw [one_mul] at hN2
    rw [abs_of_nonpos (by linarith), abs_of_nonpos (by linarith)] at q
    linarith
  obtain ⟨r, r1, -, r3⟩ := C99_one_digit_read T fb errno mem str n h d j hd hd9 hx h1 h2
  obtain ⟨q1, q2⟩ := r3 hm
  have hrb : r.value = b := roundsTo_unique q1 hb
  rw [hrb] at q2
  refine ⟨by rw [r1, q2], (C81_one_digit T d j hd hd9 n.value hx b hb hn).mpr fun hlong => ?_⟩
  cases T with
  | float =>
    have key : ∀ x ∈ oneDigitLong .float, x ∈ oneDigitAsked .float ∨
        x ∈ [((1 : Nat), (-22 : Int)), (2, -22), (3, -23), (5, -23), (6, -23)] := by decide
    exact (key _ hlong).elim hm (hl rfl)
  | double =>
    have key : ∀ x ∈ oneDigitLong .double, x ∈ oneDigitAsked .double := by decide
    exact hm (key _ hlong)

/-- The numbers handed over to the fallback without being ties. -/
def nearTies : List (Nat × Int) := [(1, 126), (2, 126), (4, 126), (8, 126), (5, 125), (5, 209), (9, -265)]

theorem asked_check (T : FloatType) (x : Nat × Int) (h : x ∈ oneDigitAsked T) :
    (if x ∈ nearTies then identNat T (nearPat T (fracND x.1 x.2).1 (fracND x.1 x.2).2) (fracND x.1 x.2).1 (fracND x.1 x.2).2
      else tieNat T (nearPat T (fracND x.1 x.2).1 (fracND x.1 x.2).2) (fracND x.1 x.2).1 (fracND x.1 x.2).2) = true := by
  revert x
  cases T <;> decide +kernel

/-- **C99, ties and near ties.** The numbers handed over are exact ties, as they must be (C37), except
for seven of `double` that are only near to one: 1e126, 2e126, 4e126, 8e126, 5e125, 5e209, 9e-265. -/
theorem C99_ties (T : FloatType) (d : Nat) (j : Int) (h : (d, j) ∈ oneDigitAsked T) :
    IsTie T (d * 10 ^ j) ↔ (d, j) ∉ nearTies := by
  have key := asked_check T (d, j) h
  have hD : 0 < (fracND d j).2 := by unfold fracND; positivity
  have hD' : (0 : ℚ) < (fracND d j).2 := by exact_mod_cast hD
  have hval := fracND_val d j
  dsimp only at key
  generalize (fracND d j).1 = V at *
  generalize (fracND d j).2 = D at *
  generalize nearPat T V D = a at key
  by_cases hm : (d, j) ∈ nearTies
  · rw [if_pos hm] at key
    simp only [identNat, Bool.and_eq_true, decide_eq_true_eq] at key
    have hi := identifies_ratio key.1.1 hD key.1.2 key.2
    refine ⟨fun ht => ?_, fun hc => absurd hm hc⟩
    rw [hval] at ht
    obtain ⟨b, hb, hbx⟩ := tie_mid (by positivity) (Or.inl ht)
    have hlt := hi.2.1
    rw [abs_of_nonneg (by positivity)] at hlt
    exact (not_identifies_mid hb hbx hlt hi).elim
  · rw [if_neg hm] at key
    simp only [tieNat, Bool.and_eq_true, decide_eq_true_eq] at key
    obtain ⟨⟨k1, -⟩, k2⟩ := key
    refine ⟨fun _ => hm, fun _ => ?_⟩
    have hx : (d * 10 ^ j : ℚ) = Mid T a := by
      rw [hval, ratio_units T V D]
      unfold Mid
      congr 1
      rw [div_eq_div_iff hD'.ne' (by norm_num)]
      have : (2 * (V * 2 ^ (-emin T).toNat) : ℚ) = (N T a + N T (a + 1)) * D := by exact_mod_cast k2
      push_cast at this ⊢
      linarith
    rw [hx]
    rcases mid_tie (show a < posInf T by omega) with ht | ht
    · exact ht
    · exfalso
      obtain ⟨m1, m2, m3⟩ := mid_value k1
      have m4 := value_lt_threshold (isFinite_of_lt k1)
      have m5 : 0 ≤ Mid T a := by unfold Mid; positivity
      rw [abs_of_nonneg m5] at ht
      have := le_abs_self (value T (a + 1))
      linarith

/-- 5e209 as a C string. -/
def near209 : Numeral := ⟨none, [5], none, some ⟨false, none, [2, 0, 9]⟩⟩

/-- -0.7 as a C string. -/
def minusSeven : Numeral := ⟨some true, [0], some [7], none⟩

theorem minusSeven_abs : |minusSeven.value| = (7 : Nat) * 10 ^ (-1 : Int) := by
  rw [abs_value_num]
  norm_num [minusSeven, Numeral.absValue, Numeral.fracDigits, Numeral.expValue, digitsVal]

theorem near209_abs : |near209.value| = (5 : Nat) * 10 ^ (209 : Int) := by
  rw [abs_value_num]
  norm_num [near209, Numeral.absValue, Numeral.fracDigits, Numeral.expValue, digitsVal, ExpPart.value]
  decide

/-- The hypotheses are met by "-0.7", which both types read themselves, ... -/
example (T : FloatType) (fb : Fallback) (errno : Nat) : ∃ r, atof T fb errno (minusSeven.text ++ [0]) 0 = .ok r ∧
    RoundsTo T minusSeven.value r.value ∧ Converted errno 0 minusSeven r.value r := by
  obtain ⟨r, r1, -, r3⟩ := C99_one_digit_read T fb errno _ 0 minusSeven
    (numeralAt_cstr ⟨by decide, by intro e he; cases he⟩ (by decide) (by intro e he; cases he)) 7 (-1) (by decide) (by decide)
    minusSeven_abs (by rw [minusSeven_abs]; cases T <;> decide +kernel) (by rw [minusSeven_abs]; cases T <;> decide +kernel)
  exact ⟨r, r1, r3 (by cases T <;> decide)⟩

/-- ... and by "5e209", for which `double` asks the fallback although it is no tie. -/
example (fb : Fallback) (errno : Nat) : (∃ r, atof .double fb errno (near209.text ++ [0]) 0 = .ok r ∧
    Delegated .double fb errno (near209.text ++ [0]) 0 r) ∧ ¬ IsTie .double ((5 : Nat) * 10 ^ (209 : Int)) := by
  refine ⟨?_, fun h => (C99_ties .double 5 209 (by decide)).mp h (by decide)⟩
  obtain ⟨r, r1, r2, -⟩ := C99_one_digit_read .double fb errno _ 0 near209
    (numeralAt_cstr ⟨by decide, by intro e he; cases he; decide⟩ (by decide)
      (by intro e he; cases he; exact ⟨by decide, readable_of_lt (by decide)⟩)) 5 209 (by decide) (by decide)
    near209_abs (by rw [near209_abs]; decide +kernel) (by rw [near209_abs]; decide +kernel)
  exact ⟨r, r1, r2 (by decide)⟩

/-- "-0.7" is also printed so (`float` and `double`). -/
example : near209.text = chars "5e209" ∧ minusSeven.text = chars "-0.7" ∧
    Prints .double 0xBFE6666666666666 (chars "-0.7") ∧ Prints .float 0xBF333333 (chars "-0.7") :=
  ⟨by decide, by decide, prints_of_string (by decide) (by decide +kernel), prints_of_string (by decide) (by decide +kernel)⟩

end Floaxie
