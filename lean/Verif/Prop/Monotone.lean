import Verif.Prop.Shortest
import Verif.Prop.RoundTrip
import Verif.Proof.RoundFun

/-!
# Order preservation (C50)
-/

namespace Floaxie

open FloatType Spec

/-- The numeral `n` is read at `str` of `mem` under the conditions of C20: at
most 19/9 significant digits (`float`: the last not below 10^-50), between the
smallest subnormal and the overflow threshold, not rounding up to a power of
two, and the fallback, if it is asked, reads it correctly. -/
structure ReadWell (T : FloatType) (fb : Fallback) (errno : Nat) (mem : List Nat) (str : Nat)
    (n : Numeral) : Prop where
  text : NumeralAt mem str n
  short : ∃ (m : Nat) (k : Int), m < 10 ^ T.digits10 ∧ n.absValue = m * 10 ^ k ∧
    (T = .float → -50 ≤ k)
  notTiny : 2 ^ emin T ≤ n.absValue
  notHuge : n.absValue < overflowThreshold T
  noCarry : ¬ RoundsUpToPow2 T n.value
  fallback : FallbackReads T fb errno mem str n

theorem ReadWell.rounds {T : FloatType} {fb : Fallback} {errno : Nat} {mem : List Nat} {str : Nat}
    {n : Numeral} (h : ReadWell T fb errno mem str n) :
    ∃ r, atof T fb errno mem str = .ok r ∧ RoundsTo T n.value r.value := by
  obtain ⟨m, k, h1, h2, h3⟩ := h.short
  obtain ⟨r, r1, r2, -⟩ := C20_correctly_rounded_given_fallback T fb errno mem str n h.text m k h1 h2
    h3 h.notTiny h.notHuge h.fallback h.noCarry
  exact ⟨r, r1, r2⟩

/-- **C50.** A larger number is never read as a smaller one: under the conditions
of C20, `atof` preserves the order of the numbers, across all spellings, memories
and fallbacks; in particular numerals of equal value get the same datum. -/
theorem C50_monotone (T : FloatType) (fb fb' : Fallback) (errno errno' : Nat)
    (mem mem' : List Nat) (str str' : Nat) (n n' : Numeral)
    (h : ReadWell T fb errno mem str n) (h' : ReadWell T fb' errno' mem' str' n')
    (hle : n.value ≤ n'.value) :
    ∃ r r', atof T fb errno mem str = .ok r ∧ atof T fb' errno' mem' str' = .ok r' ∧
      value T r.value ≤ value T r'.value ∧ (n.value = n'.value → r.value = r'.value) := by
  obtain ⟨r, r1, r2⟩ := h.rounds
  obtain ⟨r', r1', r2'⟩ := h'.rounds
  refine ⟨r, r', r1, r1', roundsTo_mono r2 r2' hle, fun e => ?_⟩
  rw [e] at r2
  exact roundsTo_unique r2 r2'

/-- The decimal numeral of `2^63 - 1024`, a `double`. -/
def belowInt64 : Numeral := ⟨none, [9,2,2,3,3,7,2,0,3,6,8,5,4,7,7,4,7,8,4], none, none⟩

/-- **C50, refuted without the exception for powers of two.** 9223372036854774784
is read exactly, the larger 9223372036854775807 as half of 9223372036854775808. -/
theorem C50_refuted (fb : Fallback) : belowInt64.value < maxInt64.value ∧
    ∃ r r', atof .double fb 0 (belowInt64.text ++ [0]) 0 = .ok r ∧
      atof .double fb 0 (maxInt64.text ++ [0]) 0 = .ok r' ∧
      r.fellBack = false ∧ r'.fellBack = false ∧ r.status = .success ∧ r'.status = .success ∧
      value .double r.value = belowInt64.value ∧
      value .double r'.value = 2 ^ 62 := by
  have e1 : belowInt64.value = (2 ^ 63 - 1024 : ℕ) := by
    norm_num [belowInt64, Numeral.value, Numeral.isNeg, Numeral.absValue, Numeral.fracDigits,
      Numeral.expValue, digitsVal]
  have e2 : maxInt64.value = (2 ^ 63 - 1 : ℕ) := maxInt64_abs
  obtain ⟨r', s1, s2, s3, s4, -⟩ := C21_refuted fb
  have h : krosh .double (belowInt64.text ++ [0]) 0 =
      .ok ⟨0x43dfffffffffffff, 19, .success, true⟩ := by decide +kernel
  refine ⟨by rw [e1, e2]; norm_num, ⟨0x43dfffffffffffff, .success, 19, 0, false⟩, r', ?_, s1, ?_, s2, ?_, s3, ?_, s4⟩
  · rw [atof_of_krosh h (by decide)]; rfl
  · rfl
  · rfl
  · rw [e1]
    norm_num [value, signBit, mag, expField, fracField, emin, FloatType.W, FloatType.p,
      FloatType.minExp]

/-- "-0.1" meets the conditions, with any fallback. -/
theorem minusTenth_readWell (fb : Fallback) : ReadWell .float fb 0 (minusTenth.text ++ [0]) 0 minusTenth := by
  have hv : value .float 0xBDCCCCCD = -(13421773 / 2 ^ 27) := by
    norm_num [value, signBit, mag, expField, fracField, emin, FloatType.W, FloatType.p,
      FloatType.minExp]
  have hx : |minusTenth.value| < overflowThreshold .float := by
    norm_num [minusTenth, Numeral.value, Numeral.isNeg, Numeral.absValue, Numeral.fracDigits,
      Numeral.expValue, digitsVal, overflowThreshold, FloatType.maxExp, FloatType.p, abs_of_pos]
  obtain ⟨b, hb, hu⟩ := roundsTo_total hx
  have ht : ∀ j : ℤ, |value .float b| = 2 ^ j → False := by
    intro j hj
    have hle := roundsTo_le hb (b' := 0xBDCCCCCD) ⟨by decide, by decide⟩
    have hm : minusTenth.value = -(1 / 10) := by
      norm_num [minusTenth, Numeral.value, Numeral.isNeg, Numeral.absValue, Numeral.fracDigits,
        Numeral.expValue, digitsVal]
    rw [hv, hm, show |(-(1 / 10) : ℚ) - -(13421773 / 2 ^ 27)| = 13421773 / 2 ^ 27 - 1 / 10 by
      rw [abs_of_pos] <;> norm_num] at hle
    obtain ⟨h1, h2⟩ := abs_le.mp hle
    have hneg : value .float b < 0 := by norm_num at h1 h2; linarith
    rw [abs_of_neg hneg] at hj
    have h3 : (2 : ℚ) ^ (-4 : ℤ) < 2 ^ j := by rw [← hj]; norm_num at h1 h2 ⊢; linarith
    have h4 : (2 : ℚ) ^ j < 2 ^ (-3 : ℤ) := by rw [← hj]; norm_num at h1 h2 ⊢; linarith
    have h3' := (zpow_lt_zpow_iff_right₀ (by norm_num)).mp h3
    have h4' := (zpow_lt_zpow_iff_right₀ (by norm_num)).mp h4
    omega
  have hk : krosh .float (minusTenth.text ++ [0]) 0 = .ok ⟨0xBDCCCCCD, 4, .success, true⟩ := by decide +kernel
  refine ⟨minusTenth_at,
    ⟨1, -1, by decide, minusTenth_abs, by decide⟩,
    by rw [minusTenth_abs]; norm_num [emin, FloatType.minExp, FloatType.p],
    by rw [minusTenth_abs]; norm_num [overflowThreshold, FloatType.maxExp, FloatType.p], ?_,
    fun r h1 h2 => ?_⟩
  swap
  · rw [atof_of_krosh hk (by decide), Except.ok.injEq] at h1
    rw [← h1] at h2; cases h2
  rintro ⟨c, j, c1, -, c3, -⟩
  rw [hu c c1] at c3
  exact ht j c3

end Floaxie
