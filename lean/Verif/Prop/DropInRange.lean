import Verif.Prop.DropIn
import Verif.Prop.Range
import Verif.Prop.Wrapped

/-!
# `atof` in place of the C library's function (C82): numbers out of range
-/

namespace Floaxie

open Spec FloatType

/-- What `strtod` does with a numeral in memory. -/
theorem strtod_at {T : FloatType} {L : NumLocale} (hL : L.point = '.'.toNat) {errno : Nat} {mem : List Nat} {str : Nat} {n : Numeral}
    (h : NumeralAt mem str n) (h0 : n.absValue ≠ 0) {v len errno' : Nat} (hs : Strtod T L errno (mem.drop str) v len errno') :
    len = n.text.length ∧ ((RoundsTo T n.value v ∧ (errno' = errno ∨ (errno' = erange ∧ n.absValue < 2 ^ (T.minExp - 1)))) ∨
      (overflowThreshold T ≤ n.absValue ∧ v = (if n.isNeg then neg T (posInf T) else posInf T) ∧ errno' = erange)) := by
  have habs : |n.value| = n.absValue := by
    have : 0 ≤ n.absValue := by unfold Numeral.absValue; positivity
    unfold Numeral.value; split_ifs <;> simp [abs_of_nonneg this]
  have hv0 : n.value ≠ 0 := by
    intro hz
    rw [hz, abs_zero] at habs
    exact h0 habs.symm
  obtain ⟨c, R, hd, he⟩ := h.text
  rw [hd, show n.text = scanText n ++ n.expText from rfl, List.append_assoc] at hs
  obtain ⟨n', -, e2, -, e4, e5⟩ := strtod_number hL (absValue_ne_zero_iff.mp hv0) hs
  rw [← List.append_assoc, ← show n.text = scanText n ++ n.expText from rfl] at e2
  have := numeral_text_inj _ _ (isSubject_unique e2 (isSubject_numeral h.valid he hv0))
  subst this
  rw [habs] at e5
  refine ⟨e4, e5.imp id fun ⟨a, b, c⟩ => ⟨a, ?_, c⟩⟩
  rw [b]
  cases n'.isNeg <;> cases T <;> decide

/-- **C82, overflow.** A numeral so large that `atof` notices it (C25) is infinity for both, with the same end; the sign is
that of the numeral, unless `atof` loses the minus sign of a number of at least `10^51` (float) / `10^344` (double).  `strtod`
sets `errno` to `ERANGE`, `atof` leaves it alone and reports overflow in the status. -/
theorem C82_overflow (T : FloatType) (L : NumLocale) (hL : L.point = '.'.toNat) (fb : Fallback) (errno : Nat) (mem : List Nat) (str : Nat)
    (n : Numeral) (h : NumeralAt mem str n) (hx : 2 ^ (T.maxExp + T.W - 1) ≤ n.absValue * (1 - slack T))
    (v len errno' : Nat) (hs : Strtod T L errno (mem.drop str) v len errno') :
    IsInf T v ∧ errno' = erange ∧ ∃ r, atof T fb errno mem str = .ok r ∧ IsInf T r.value ∧ r.status = .overflow ∧
      r.strEnd = str + len ∧ r.errno = errno ∧ (n.isNeg = false ∨ n.absValue < 10 ^ (T.powHi + 1) → r.value = v) := by
  have hs0 := slack_pos T
  have hs1 : slack T < 1 := by cases T <;> norm_num [slack]
  have hp : (0 : ℚ) < 2 ^ (T.maxExp + T.W - 1) := by positivity
  have hx0 : 0 < n.absValue := by
    by_contra hc
    have : n.absValue * (1 - slack T) ≤ 0 := mul_nonpos_of_nonpos_of_nonneg (by linarith) (by linarith)
    linarith
  have hge : n.absValue * (1 - slack T) ≤ n.absValue := by nlinarith
  have hthr : overflowThreshold T ≤ n.absValue := by
    have a1 : (2 : ℚ) ^ T.maxExp ≤ 2 ^ (T.maxExp + T.W - 1) := zpow_le_zpow_right₀ (by norm_num) (by cases T <;> decide)
    have a2 : (0 : ℚ) < 2 ^ (T.maxExp - T.p - 1) := by positivity
    unfold overflowThreshold
    linarith
  obtain ⟨w, a1, a2⟩ := C25_overflow T fb errno mem str n h hx
  obtain ⟨b1, b2⟩ := strtod_at hL h hx0.ne' hs
  have habs : |n.value| = n.absValue := by
    unfold Numeral.value; split_ifs <;> simp [abs_of_nonneg hx0.le]
  rcases b2 with ⟨b2, -⟩ | ⟨-, b2, b3⟩
  · exact absurd b2.2.1 (not_lt.mpr (by rw [habs]; exact hthr))
  have hinf : IsInf T (posInf T) ∧ IsInf T (neg T (posInf T)) := by unfold IsInf; cases T <;> decide
  refine ⟨by rw [b2]; split_ifs <;> [exact hinf.2; exact hinf.1], b3, _, a1, ?_, rfl, by rw [b1], rfl, ?_⟩
  · rcases a2 with rfl | ⟨rfl, -⟩
    · split_ifs <;> [exact hinf.2; exact hinf.1]
    · exact hinf.1
  · intro hc
    rcases a2 with a2 | ⟨a2, a3⟩
    · exact a2.trans b2.symm
    · rcases hc with hc | hc
      · rw [b2, hc]; exact a2
      · exact absurd a3 (not_le.mpr hc)

/-- **C82, overflow that goes unnoticed.** Between the largest finite value and there, `strtod` returns infinity and sets
`errno` to `ERANGE`; `atof` returns that only if it asks the fallback, or possibly between `2^maxExp` and `2^(maxExp+1)`: outside
that octave it returns a finite value. -/
theorem C82_overflow_missed (T : FloatType) (L : NumLocale) (hL : L.point = '.'.toNat) (fb : Fallback) (errno : Nat) (mem : List Nat)
    (str : Nat) (n : Numeral) (h : NumeralAt mem str n) (hx1 : overflowThreshold T ≤ n.absValue * (1 - slack T))
    (hx2 : n.absValue * (1 + slack T) < 2 ^ (T.maxExp + T.W - 1))
    (hx3 : n.absValue * (1 + slack T) < 2 ^ T.maxExp ∨ 2 ^ (T.maxExp + 1) ≤ n.absValue * (1 - slack T))
    (v len errno' : Nat) (hs : Strtod T L errno (mem.drop str) v len errno') :
    IsInf T v ∧ errno' = erange ∧ ∃ r, atof T fb errno mem str = .ok r ∧
      (r.fellBack = true ∨ (r.fellBack = false ∧ IsFinite T r.value ∧ r.value ≠ v ∧ r.status = .success ∧ r.strEnd = str + len)) := by
  have hs0 := slack_pos T
  have hs1 : slack T < 1 := by cases T <;> norm_num [slack]
  have hpt : (0 : ℚ) < overflowThreshold T := by
    unfold overflowThreshold
    have a1 : (2 : ℚ) ^ (T.maxExp - T.p - 1) < 2 ^ T.maxExp := zpow_lt_zpow_right₀ (by norm_num) (by omega)
    linarith
  have hx0 : 0 < n.absValue := by
    by_contra hc
    have : n.absValue * (1 - slack T) ≤ 0 := mul_nonpos_of_nonpos_of_nonneg (by linarith) (by linarith)
    linarith
  have hge : n.absValue * (1 - slack T) ≤ n.absValue := by nlinarith
  obtain ⟨b1, b2⟩ := strtod_at hL h hx0.ne' hs
  have habs : |n.value| = n.absValue := by
    unfold Numeral.value; split_ifs <;> simp [abs_of_nonneg hx0.le]
  rcases b2 with ⟨b2, -⟩ | ⟨-, b2, b3⟩
  · exact absurd b2.2.1 (not_lt.mpr (by rw [habs]; linarith))
  have hinf : IsInf T (posInf T) ∧ IsInf T (neg T (posInf T)) := by unfold IsInf; cases T <;> decide
  have hv : IsInf T v := by rw [b2]; split_ifs <;> [exact hinf.2; exact hinf.1]
  obtain ⟨r, r1, r2⟩ := C25_missed T fb errno mem str n h hx1 hx2
  refine ⟨hv, b3, r, r1, ?_⟩
  rcases r2 with r2 | ⟨u, r2, r3⟩
  · exact Or.inl r2.1
  · right
    have hfin : IsFinite T u := by
      rcases r3 with r3 | ⟨c1, c2, -⟩ | r3
      · exact r3.2.1
      · rcases hx3 with hx3 | hx3 <;> linarith
      · exact r3.2.1
    unfold Converted at r2
    subst r2
    refine ⟨rfl, hfin, ?_, rfl, by rw [b1]⟩
    rintro rfl
    exact hfin.2 hv.2.1

/-- A number less than half the least positive value is rounded to a zero of its sign. -/
theorem roundsTo_tiny {T : FloatType} {x : ℚ} {v : Nat} (hx : |x| < 2 ^ emin T / 2) (h : RoundsTo T x v) :
    v = if x < 0 then neg T 0 else 0 := by
  have hz : IsFinite T 0 ∧ IsFinite T (neg T 0) ∧ value T 0 = 0 ∧ value T (neg T 0) = 0 := by
    have h0 : IsFinite T 0 := isFinite_of_lt (by cases T <;> decide)
    have h1 : value T 0 = 0 := by rw [value_zero_iff]; cases T <;> decide
    exact ⟨h0, isFinite_neg h0, h1, by rw [value_neg (by positivity), h1, neg_zero]⟩
  have h1 := roundsTo_le h hz.1
  rw [hz.2.2.1, sub_zero] at h1
  have h2 : |value T v| < 2 ^ emin T := by
    have : |value T v| ≤ |x| + |x - value T v| := by
      rw [abs_sub_comm]
      have := abs_add_le x (value T v - x)
      simpa using this
    linarith
  have h3 : absPat T v = 0 := by
    by_contra hne
    have : (2 : ℚ) ^ emin T ≤ |value T v| := by
      have hmag : |value T v| = N T (absPat T v) * 2 ^ emin T := by
        have hu := emin_pos T
        unfold value
        rw [mag_eq]
        split_ifs
        · rw [abs_neg, abs_of_nonneg (by positivity)]
        · rw [abs_of_nonneg (by positivity)]
      rw [hmag]
      have : 1 ≤ N T (absPat T v) := by
        have := N_lt (T := T) (show 0 < absPat T v by omega)
        omega
      have h1 : (1 : ℚ) ≤ N T (absPat T v) := by exact_mod_cast this
      have := emin_pos T
      nlinarith
    linarith
  have h4 := h.2.2.1
  have h5 := h.1.1
  by_cases hneg : x < 0
  · rw [if_pos hneg]
    have h4 := h4.mpr hneg
    clear * - h3 h4 h5
    cases T <;> simp only [absPat, signBit, neg, FloatType.W] at * <;> norm_num at * <;> omega
  · rw [if_neg hneg]
    have h4 : signBit T v ≠ 1 := fun hc => hneg (h4.mp hc)
    clear * - h3 h4 h5
    cases T <;> simp only [absPat, signBit, FloatType.W] at * <;> omega

/-- **C82, underflow.** A numeral other than zero below half the least positive value is zero for both, with the same end; the
sign is that of the numeral, unless `atof` loses the minus sign of a number below `10^-42` (float) / `10^-325` (double).  `strtod`
may set `errno` to `ERANGE`, `atof` leaves it alone and reports underflow in the status. -/
theorem C82_underflow (T : FloatType) (L : NumLocale) (hL : L.point = '.'.toNat) (fb : Fallback) (errno : Nat) (mem : List Nat) (str : Nat)
    (n : Numeral) (h : NumeralAt mem str n) (h0 : n.absValue ≠ 0) (hx : n.absValue < 2 ^ emin T / 2)
    (v len errno' : Nat) (hs : Strtod T L errno (mem.drop str) v len errno') :
    value T v = 0 ∧ (signBit T v = 1 ↔ n.isNeg = true) ∧ ∃ r, atof T fb errno mem str = .ok r ∧ value T r.value = 0 ∧ r.status = .underflow ∧
      r.strEnd = str + len ∧ r.errno = errno ∧
      (n.isNeg = false ∨ 10 ^ (T.powLo - 1 + T.digits10) ≤ n.absValue → r.value = v) := by
  have hs1 : slack T < 1 := by cases T <;> norm_num [slack]
  have hx0 : 0 < n.absValue := lt_of_le_of_ne (absValue_nonneg n) (Ne.symm h0)
  have hz : value T 0 = 0 ∧ value T (neg T 0) = 0 := by
    have h1 : value T 0 = 0 := by rw [value_zero_iff]; cases T <;> decide
    exact ⟨h1, by rw [value_neg (by positivity), h1, neg_zero]⟩
  obtain ⟨w, a1, a2⟩ := C26_underflow T fb errno mem str n h h0 (by nlinarith)
  obtain ⟨b1, b2⟩ := strtod_at hL h h0 hs
  have habs : |n.value| = n.absValue := by
    unfold Numeral.value; split_ifs <;> simp [abs_of_nonneg hx0.le]
  have hneg : n.value < 0 ↔ n.isNeg = true := by
    unfold Numeral.value
    cases n.isNeg
    · simp [hx0.le]
    · simp [hx0]
  have hthr : n.absValue < overflowThreshold T := by
    have a1 : (2 : ℚ) ^ emin T ≤ 1 := zpow_le_one_of_nonpos₀ (by norm_num) (by cases T <;> decide)
    have a2 : (2 : ℚ) ^ (T.maxExp - T.p - 1) ≤ 2 ^ (T.maxExp - 1) := zpow_le_zpow_right₀ (by norm_num) (by omega)
    have a3 : (2 : ℚ) ^ T.maxExp = 2 * 2 ^ (T.maxExp - 1) := by rw [zpow_sub_one₀ (by norm_num)]; ring
    have a4 : (1 : ℚ) ≤ 2 ^ (T.maxExp - 1) := one_le_zpow₀ (by norm_num) (by cases T <;> decide)
    unfold overflowThreshold
    linarith
  rcases b2 with ⟨b2, -⟩ | ⟨b2, -⟩
  · have hv := roundsTo_tiny (by rw [habs]; exact hx) b2
    have hv' : v = if n.isNeg then neg T 0 else 0 := by
      rw [hv]; cases hb : n.isNeg
      · rw [if_neg (by rw [hneg, hb]; decide), if_neg (by decide)]
      · rw [if_pos (hneg.mpr hb), if_pos rfl]
    refine ⟨by rw [hv']; split_ifs <;> [exact hz.2; exact hz.1], by rw [b2.2.2.1, hneg], _, a1, ?_, rfl, by rw [b1], rfl, ?_⟩
    · rcases a2 with rfl | ⟨rfl, -⟩
      · split_ifs <;> [exact hz.2; exact hz.1]
      · exact hz.1
    · intro hc
      rcases a2 with a2 | ⟨a2, a3⟩
      · exact a2.trans hv'.symm
      · rcases hc with hc | hc
        · rw [hv', hc]; exact a2
        · exact absurd a3 (not_lt.mpr hc)
  · exact absurd hthr (not_lt.mpr b2)

/-- **C82, numbers next to the least positive value.** Between half of it and it, `strtod` returns it, `atof` zero (C26). -/
theorem C82_underflow_premature (T : FloatType) (L : NumLocale) (hL : L.point = '.'.toNat) (fb : Fallback) (errno : Nat) (mem : List Nat)
    (str : Nat) (n : Numeral) (h : NumeralAt mem str n) (hx1 : 2 ^ emin T / 2 < n.absValue)
    (hx2 : n.absValue * (1 + slack T) < 2 ^ emin T) (v len errno' : Nat) (hs : Strtod T L errno (mem.drop str) v len errno') :
    |value T v| = 2 ^ emin T ∧ ∃ r, atof T fb errno mem str = .ok r ∧ value T r.value = 0 ∧ r.status = .underflow ∧
      r.strEnd = str + len := by
  have hu := emin_pos T
  have hx0 : 0 < n.absValue := by linarith
  obtain ⟨b, w, c1, c2, c3, c4⟩ := C26_premature T fb errno mem str n h hx1 hx2
  obtain ⟨b1, b2⟩ := strtod_at hL h hx0.ne' hs
  have habs : |n.value| = n.absValue := by
    unfold Numeral.value; split_ifs <;> simp [abs_of_nonneg hx0.le]
  rcases b2 with ⟨b2, -⟩ | ⟨b2, -⟩
  · rw [roundsTo_unique b2 c1]
    exact ⟨c2, _, c4, c3, rfl, by rw [b1]⟩
  · exact absurd c1.2.1 (not_lt.mpr (by rw [habs]; exact b2))

/-- The hypotheses can be met: "-1e48" as float, "C" locale. -/
example : ∃ v len e, Strtod .float cNum 0 ((m1e48.text ++ [0]).drop 0) v len e ∧
    ∀ fb, ∃ r, atof .float fb 0 (m1e48.text ++ [0]) 0 = .ok r ∧ r.value = v ∧ r.status = .overflow ∧ e = erange := by
  obtain ⟨v, len, e, h⟩ := strtod_exists .float cNum 0 ((m1e48.text ++ [0]).drop 0)
  refine ⟨v, len, e, h, fun fb => ?_⟩
  obtain ⟨-, a, r, r1, -, r3, -, -, r4⟩ := C82_overflow .float cNum rfl fb 0 _ 0 m1e48 m1e48_at
    (by rw [m1e48_abs]; norm_num [FloatType.maxExp, FloatType.W, slack]) v len e h
  exact ⟨r, r1, r4 (Or.inr (by rw [m1e48_abs]; norm_num [FloatType.powHi])), r3, a⟩

/-- "-1e40" as float: infinity for `strtof`, not for `atof`. -/
example : ∃ v len e, Strtod .float cNum 0 ((m1e40.text ++ [0]).drop 0) v len e ∧ IsInf .float v ∧
    ∀ fb, ∃ r, atof .float fb 0 (m1e40.text ++ [0]) 0 = .ok r ∧ (r.fellBack = true ∨ r.value ≠ v) := by
  obtain ⟨v, len, e, h⟩ := strtod_exists .float cNum 0 ((m1e40.text ++ [0]).drop 0)
  have key := fun fb => C82_overflow_missed .float cNum rfl fb 0 _ 0 m1e40 m1e40_at
    (by rw [m1e40_abs]; norm_num [overflowThreshold, FloatType.maxExp, FloatType.p, slack])
    (by rw [m1e40_abs]; norm_num [FloatType.maxExp, FloatType.W, slack])
    (Or.inr (by rw [m1e40_abs]; norm_num [FloatType.maxExp, slack])) v len e h
  refine ⟨v, len, e, h, (key (fun _ _ _ => ⟨0, 0, 0⟩)).1, fun fb => ?_⟩
  obtain ⟨-, -, r, r1, r2⟩ := key fb
  exact ⟨r, r1, r2.imp id fun x => x.2.2.1⟩

/-- "-5e-46" -/
def m5e46 : Numeral := ⟨some true, [5], none, some ⟨false, some true, [4, 6]⟩⟩

theorem m5e46_at : NumeralAt (m5e46.text ++ [0]) 0 m5e46 :=
  numeralAt_cstr ⟨by decide, by intro e he; cases he; decide⟩ (by decide)
    (by intro e he; cases he; exact ⟨by decide, readable_of_lt (by decide)⟩)

theorem m5e46_abs : m5e46.absValue = 5 / 10 ^ 46 := by
  norm_num [m5e46, Numeral.absValue, Numeral.fracDigits, Numeral.expValue, ExpPart.value, digitsVal]

/-- The hypotheses of `C82_underflow` are met by "-5e-46" as float. -/
example : ∃ v len e, Strtod .float cNum 0 ((m5e46.text ++ [0]).drop 0) v len e ∧
    ∀ fb, ∃ r, atof .float fb 0 (m5e46.text ++ [0]) 0 = .ok r ∧ r.status = .underflow := by
  obtain ⟨v, len, e, h⟩ := strtod_exists .float cNum 0 ((m5e46.text ++ [0]).drop 0)
  refine ⟨v, len, e, h, fun fb => ?_⟩
  obtain ⟨-, -, r, r1, -, r3, -⟩ := C82_underflow .float cNum rfl fb 0 _ 0 m5e46 m5e46_at
    (by rw [m5e46_abs]; norm_num)
    (by rw [m5e46_abs]; norm_num [emin, FloatType.minExp, FloatType.p]) v len e h
  exact ⟨r, r1, r3⟩

/-- And those of `C82_underflow_premature` by "1e-45". -/
example : ∃ v len e, Strtod .float cNum 0 ((e45.text ++ [0]).drop 0) v len e ∧
    ∀ fb, ∃ r, atof .float fb 0 (e45.text ++ [0]) 0 = .ok r ∧ value .float r.value = 0 ∧ |value .float v| = 2 ^ emin .float := by
  obtain ⟨v, len, e, h⟩ := strtod_exists .float cNum 0 ((e45.text ++ [0]).drop 0)
  refine ⟨v, len, e, h, fun fb => ?_⟩
  obtain ⟨a, r, r1, r2, -⟩ := C82_underflow_premature .float cNum rfl fb 0 _ 0 e45 e45_at
    (by rw [e45_abs]; norm_num [emin, FloatType.minExp, FloatType.p])
    (by rw [e45_abs]; norm_num [emin, FloatType.minExp, FloatType.p, slack]) v len e h
  exact ⟨r, r1, r2, a⟩

end Floaxie
