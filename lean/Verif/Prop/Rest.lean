import Verif.Prop.Special

/-!
# C24 (digit accumulation), C38 (errno), C39 (fraction of the discarded digits)
-/

namespace Floaxie

open FloatType Spec

/-! ## C24 -/

/-- **C24.** The digits (and point) of a numeral, up to 2049 characters, are read
as a mantissa `P` of at most 19 / 9 digits and a decimal exponent `K` with
`P*10^K ≤ x < (P+1)*10^K`; exactly, and with no trailing zero in `P`, if the
number has at most 19 / 9 significant digits; the end is after the last
character, and the sign is the numeral's. -/
theorem C24_digits (T : FloatType) (mem : List Nat) (str : Nat) (n : Numeral) (h : NumeralAt mem str n) (hx : n.exp = none) :
    ∃ (P : Nat) (K : Int) (frac : Nat),
      parseDigits T mem str = .ok ⟨P, K, str + n.text.length, frac, .no, !n.isNeg⟩ ∧
      P < 10 ^ T.digits10 ∧ (P : ℚ) * 10 ^ K ≤ n.absValue ∧ n.absValue < (P + 1) * 10 ^ K ∧
      (Short T.digits10 n.absValue → n.absValue = P * 10 ^ K ∧ frac = 0 ∧ (P ≠ 0 → ¬ 10 ∣ P)) := by
  obtain ⟨c, R, hm, he, -⟩ := h.scan
  obtain ⟨P, K, frac, h1, -, h2⟩ := parseDigits_num (T := T) hm he h.mantLen
  have hv : n.absValue = mantVal n := by
    rw [absValue_eq]; simp [Numeral.expValue, hx]
  have ht : scanText n = n.text := by rw [scan_split]; simp [Numeral.expText, hx]
  rw [hv]
  exact ⟨P, K, frac, by rw [h2, ht], h1.lt, h1.bounds.1, h1.bounds.2, h1.short (digits10_le T).1⟩

/-- "-0.1": `P = 1`, `K = -1`. -/
example : parseDigits .double (minusTenth.text ++ [0]) 0 = .ok ⟨1, -1, 4, 0, .no, false⟩ := by
  obtain ⟨P, K, frac, h, -⟩ := C24_digits .double _ 0 minusTenth minusTenth_at rfl
  decide +kernel

/-! ## C38 -/

/-- **C38, no fallback.** A conversion that does not use the fallback depends
neither on `errno` nor on the fallback, and leaves `errno` alone. -/
theorem C38_own_result (T : FloatType) (fb : Fallback) (errno : Nat) (mem : List Nat) (str : Nat) (r : AtofResult)
    (h : atof T fb errno mem str = .ok r) (hf : r.fellBack = false) :
    r.errno = errno ∧ ∀ fb' errno', atof T fb' errno' mem str = .ok { r with errno := errno' } := by
  unfold atof at h ⊢
  cases hk : krosh T mem str with
  | error e => rw [hk] at h; cases h
  | ok k =>
    rw [hk, ok_bind] at h
    simp only [ok_bind]
    by_cases h1 : k.strEnd = str
    · rw [if_neg (by simpa using h1)] at h
      cases h
      exact ⟨rfl, fun fb' errno' => by rw [if_neg (by simpa using h1)]; rfl⟩
    · rw [if_pos h1] at h
      by_cases h2 : k.isAccurate = true
      · rw [if_pos h2] at h
        cases h
        exact ⟨rfl, fun fb' errno' => by rw [if_pos h1, if_pos h2]; rfl⟩
      · rw [if_neg h2] at h
        cases h; cases hf

/-- "-0.1" is converted without fallback. -/
example (fb : Fallback) : ∃ r, atof .double fb 7 (minusTenth.text ++ [0]) 0 = .ok r ∧ r.fellBack = false := by
  have : krosh .double (minusTenth.text ++ [0]) 0 = .ok ⟨0xBFB999999999999A, 4, .success, true⟩ := by decide +kernel
  exact ⟨_, by rw [atof_of_krosh this (by decide)], rfl⟩

/-- **C38, fallback.** Whether the fallback is used does not depend on `errno`
or on the fallback; if it is, the result is the fallback's, and the status is
read off `errno` as the fallback leaves it. -/
theorem C38_fallback_result (T : FloatType) (fb : Fallback) (errno : Nat) (mem : List Nat) (str : Nat) (r : AtofResult)
    (h : atof T fb errno mem str = .ok r) (hf : r.fellBack = true) :
    ∀ fb' errno', ∃ r', atof T fb' errno' mem str = .ok r' ∧ Delegated T fb' errno' mem str r' := by
  intro fb' errno'
  unfold atof at h ⊢
  cases hk : krosh T mem str with
  | error e => rw [hk] at h; cases h
  | ok k =>
    rw [hk, ok_bind] at h
    simp only [ok_bind]
    by_cases h1 : k.strEnd = str
    · rw [if_neg (by simpa using h1)] at h
      cases h; cases hf
    · rw [if_pos h1] at h
      by_cases h2 : k.isAccurate = true
      · rw [if_pos h2] at h
        cases h; cases hf
      · exact ⟨_, by rw [if_pos h1, if_neg h2]; rfl, delegated_of⟩

/-- **C38, clean errno.** With a fallback that behaves like the C library's (its
value and end pointer do not depend on `errno`, and it sets `errno` to `ERANGE`
on range errors and otherwise leaves it alone), the result does not depend on
`errno`, as long as it is not `ERANGE` before the call. -/
theorem C38_clean_errno (T : FloatType) (fb : Fallback) (mem : List Nat) (str : Nat) (v e : Nat) (range : Bool)
    (hfb : ∀ errno, fb mem str errno = ⟨v, e, if range then ERANGE else errno⟩)
    (errno errno' : Nat) (h1 : errno ≠ ERANGE) (h2 : errno' ≠ ERANGE) (r : AtofResult)
    (h : atof T fb errno mem str = .ok r) :
    ∃ r', atof T fb errno' mem str = .ok r' ∧ r'.value = r.value ∧ r'.status = r.status ∧ r'.strEnd = r.strEnd := by
  cases hf : r.fellBack with
  | false =>
    exact ⟨_, (C38_own_result T fb errno mem str r h hf).2 fb errno', rfl, rfl, rfl⟩
  | true =>
    obtain ⟨r', g1, -, g2, g3, g4, g5⟩ := C38_fallback_result T fb errno mem str r h hf fb errno'
    obtain ⟨r'', k1, -, k2, k3, k4, k5⟩ := C38_fallback_result T fb errno mem str r h hf fb errno
    rw [h] at k1
    cases k1
    rw [hfb] at g2 g3 g4 k2 k3 k4
    refine ⟨r', g1, by rw [g2, k2], ?_, by rw [g3, k3]⟩
    rw [g5, k5, g4, k4, g2, k2]
    cases range <;> simp [h1, h2]

/-- **C38 is false in general:** after an earlier range error (`errno` =
`ERANGE`), "9007199254740993", for which `strtod` succeeds and leaves `errno`
alone, is reported as overflow. -/
theorem C38_refuted (fb : Fallback) (hfb : ∀ mem str errno, fb mem str errno = ⟨0x4340000000000000, 16, errno⟩) :
    atof .double fb 0 (tie53.text ++ [0]) 0 = .ok ⟨0x4340000000000000, .success, 16, 0, true⟩ ∧
    atof .double fb ERANGE (tie53.text ++ [0]) 0 = .ok ⟨0x4340000000000000, .overflow, 16, ERANGE, true⟩ := by
  have : krosh .double (tie53.text ++ [0]) 0 = .ok ⟨0x4340000000000000, 16, .success, false⟩ := by decide +kernel
  constructor <;>
  · rw [atof_of_krosh this (by decide)]
    simp only [hfb]
    decide +kernel

/-- The hypotheses of `C38_clean_errno` are met by "9007199254740993" and such a fallback. -/
example : ∃ r', atof .double (fun _ _ e => ⟨0x4340000000000000, 16, e⟩) 22 (tie53.text ++ [0]) 0 = .ok r' ∧
    r'.value = 0x4340000000000000 ∧ r'.status = .success ∧ r'.strEnd = 16 :=
  C38_clean_errno .double _ _ 0 _ _ false (fun _ => rfl) 0 22 (by decide) (by decide) _
    (C38_refuted (fun _ _ e => ⟨0x4340000000000000, 16, e⟩) (fun _ _ _ => rfl)).1

/-! ## C39 -/

theorem fractionConvert_lt (dd bd : Nat) : ∀ left x, fractionConvert dd bd left x < 2 ^ (left + 1)
  | 0, x => by unfold fractionConvert; split_ifs <;> norm_num
  | left + 1, x => by
    unfold fractionConvert
    dsimp only
    refine Nat.or_lt_two_pow ?_ (lt_trans (fractionConvert_lt dd bd left _) (Nat.pow_lt_pow_right (by norm_num) (by omega)))
    rw [Nat.shiftLeft_eq, pow_succ 2 (left + 1)]
    have : 0 < 2 ^ (left + 1) := by positivity
    split_ifs <;> omega

/-- The result fits the number of binary digits asked for, for any sizes. -/
theorem C39_fits (dd bd x : Nat) (h : 0 < bd) : convertNumerator dd bd x < 2 ^ bd := by
  unfold convertNumerator
  have := fractionConvert_lt dd bd (bd - 1) x
  rwa [Nat.sub_add_cancel h] at this

/-- **C39.** The 7-bit fraction `c` made of the first four discarded decimals `t`
is below 128, and `c/128` is above `t/10^4` by at most 112/1280000 and below it
by at most 9872/1280000 - in particular by less than one unit 1/128. -/
theorem C39_convert (t : Nat) (h : t < 10 ^ 4) :
    convertNumerator 4 7 t < 128 ∧ (convertNumerator 4 7 t : ℚ) / 128 - t / 10 ^ 4 ≤ 112 / 1280000 ∧
    (t : ℚ) / 10 ^ 4 - convertNumerator 4 7 t / 128 ≤ 9872 / 1280000 ∧
    |(convertNumerator 4 7 t : ℚ) / 128 - t / 10 ^ 4| < 1 / 128 := by
  obtain ⟨h1, h2, h3⟩ := convert_bounds (x := t) (by omega)
  have g2 : (convertNumerator 4 7 t : ℚ) * 10000 ≤ 128 * t + 112 := by exact_mod_cast h2
  have g3 : 128 * (t : ℚ) ≤ convertNumerator 4 7 t * 10000 + 9872 := by exact_mod_cast h3
  refine ⟨h1, by linarith, by linarith, ?_⟩
  rw [abs_lt]; constructor <;> linarith

theorem convert_mono_check : (List.range 9999).all (fun x =>
    decide (convertNumerator 4 7 x ≤ convertNumerator 4 7 (x + 1))) = true := by decide +kernel

/-- **C39, monotone.** -/
theorem C39_monotone (t t' : Nat) (h : t ≤ t') (h' : t' < 10 ^ 4) : convertNumerator 4 7 t ≤ convertNumerator 4 7 t' := by
  induction t', h using Nat.le_induction with
  | base => exact le_rfl
  | succ k hk ih =>
    refine (ih (by omega)).trans ?_
    exact of_decide_eq_true (List.all_eq_true.mp convert_mono_check k (List.mem_range.mpr (by omega)))

/-- **C39, attained.** Neither bound can be improved. -/
theorem C39_attained : (∃ t : Nat, t < 10 ^ 4 ∧ (convertNumerator 4 7 t : ℚ) / 128 - t / 10 ^ 4 = 112 / 1280000) ∧
    ∃ t : Nat, t < 10 ^ 4 ∧ (t : ℚ) / 10 ^ 4 - convertNumerator 4 7 t / 128 = 9872 / 1280000 := by
  have h : convertNumerator 4 7 546 = 7 ∧ convertNumerator 4 7 9999 = 127 := by decide
  exact ⟨⟨546, by norm_num, by rw [h.1]; norm_num⟩, 9999, by norm_num, by rw [h.2]; norm_num⟩

example : convertNumerator 4 7 5000 = 64 ∧ convertNumerator 4 7 9999 = 127 ∧ convertNumerator 4 7 0 = 0 := by decide

end Floaxie
