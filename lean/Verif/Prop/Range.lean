import Verif.Proof.Range
import Verif.Prop.Errors

/-!
# C25, C26: numerals outside the range of the type
-/

namespace Floaxie

open Spec FloatType

theorem margin {T : FloatType} {x y : ℚ} (h : |y - x| ≤ x * slack T) : x * (1 - slack T) ≤ y ∧ y ≤ x * (1 + slack T) := by
  have := abs_le.mp h
  constructor <;> linarith [this.1, this.2]

/-! ## C25 -/

/-- **C25, overflow.** A numeral of magnitude at least `2^(maxExp + W - 1)`
(`2^159` for float, `2^1087` for double; with a margin of `slack`) gives infinity
with status overflow, and is consumed; the infinity has the sign of the numeral,
unless the magnitude is at least `10^51` / `10^344`, where a minus may be lost. -/
theorem C25_overflow (T : FloatType) (fb : Fallback) (errno : Nat) (mem : List Nat) (str : Nat) (n : Numeral)
    (h : NumeralAt mem str n) (hx : 2 ^ (T.maxExp + T.W - 1) ≤ n.absValue * (1 - slack T)) :
    ∃ v, atof T fb errno mem str = .ok ⟨v, .overflow, str + n.text.length, errno, false⟩ ∧
      ((v = if n.isNeg then neg T (posInf T) else posInf T) ∨ (v = posInf T ∧ 10 ^ (T.powHi + 1) ≤ n.absValue)) := by
  have hs := slack_pos T
  have hs1 : slack T < 1 := by cases T <;> norm_num [slack]
  have hb : (0 : ℚ) < 2 ^ (T.maxExp + T.W - 1) := by positivity
  have hx0 : 0 < n.absValue := by
    by_contra hc
    have : n.absValue * (1 - slack T) ≤ 0 := mul_nonpos_of_nonpos_of_nonneg (by linarith) (by linarith)
    linarith
  have hge : n.absValue * (1 - slack T) ≤ n.absValue := by nlinarith
  have hpos := text_pos h.valid
  have hone : (1 : ℚ) ≤ 2 ^ (T.maxExp + T.W - 1) := one_le_zpow₀ (by norm_num) (by cases T <;> decide)
  rcases krosh_backward (T := T) h hx0.ne' with ⟨k1, -, -⟩ | ⟨k1, k2⟩ | ⟨w, w1, w2, w3, -, v, st, acc, w5, w6⟩
  · exfalso
    have : (10 : ℚ) ^ (T.powLo - 1 + T.digits10) ≤ 1 := zpow_le_one_of_nonpos₀ (by norm_num) (by cases T <;> decide)
    linarith
  · refine ⟨posInf T, ?_, Or.inr ⟨rfl, k1⟩⟩
    rw [atof_of_krosh k2 (by dsimp only; omega)]; rfl
  · have hm := margin w3
    have hsz := norm_size w1 w2
    have he := exp_le_of (le_trans hx hm.1) hsz.2
    rcases downsample_total T w w1 w2 with ⟨-, d⟩ | ⟨d, -⟩ | ⟨d, -⟩
    · rw [d] at w5
      cases w5
      refine ⟨_, ?_, Or.inl rfl⟩
      rw [atof_of_krosh w6 (by dsimp only; omega)]; rfl
    · exfalso
      have := W_pos T
      have : emin T + 1 ≤ T.maxExp := by cases T <;> decide
      omega
    · exfalso; omega

/-- **C25, overflow is reported only there:** without fallback, the status is
overflow only for magnitudes of at least `2^(maxExp + W - 1)` (up to `slack`),
and then the value is an infinity. -/
theorem C25_overflow_only (T : FloatType) (fb : Fallback) (errno : Nat) (mem : List Nat) (str : Nat) (n : Numeral)
    (h : NumeralAt mem str n) (r : AtofResult) (hr : atof T fb errno mem str = .ok r) (hf : r.fellBack = false)
    (hst : r.status = .overflow) :
    2 ^ (T.maxExp + T.W - 1) ≤ n.absValue * (1 + slack T) ∧ IsInf T r.value := by
  have hinf : IsInf T (posInf T) ∧ IsInf T (neg T (posInf T)) := by
    cases T <;> exact ⟨⟨by decide, by decide, by decide⟩, ⟨by decide, by decide, by decide⟩⟩
  have hpos := text_pos h.valid
  by_cases h0 : n.absValue = 0
  · exfalso
    have hk := krosh_zero (T := T) h h0
    have hpos : 0 < (scanText n).length := by
      have h1 := scanText_length n
      have h2 : 0 < (allDigits n).length := List.length_pos_iff.mpr h.valid.1
      omega
    rw [atof_of_krosh hk (by dsimp only; omega)] at hr
    rw [if_pos rfl, Except.ok.injEq] at hr
    rw [← hr] at hst
    cases hst
  have hx0 : 0 < n.absValue := lt_of_le_of_ne (absValue_nonneg n) (Ne.symm h0)
  have hle : n.absValue ≤ n.absValue * (1 + slack T) := by have := slack_pos T; nlinarith
  rcases krosh_backward (T := T) h h0 with ⟨-, -, k⟩ | ⟨k1, k2⟩ | ⟨w, w1, w2, w3, -, v, st, acc, w5, w6⟩
  · exfalso
    rw [atof_of_krosh k (by dsimp only; omega)] at hr
    rw [if_pos rfl, Except.ok.injEq] at hr
    rw [← hr] at hst
    cases hst
  · rw [atof_of_krosh k2 (by dsimp only; omega)] at hr
    rw [if_pos rfl, Except.ok.injEq] at hr
    refine ⟨?_, by rw [← hr]; exact hinf.1⟩
    have h1 := pow_hi (T := T)
    have h3 : (0 : ℚ) < 2 ^ (T.maxExp + T.W - 1) := by positivity
    linarith
  · rw [atof_of_krosh w6 (by dsimp only; omega)] at hr
    cases acc with
    | false =>
      rw [if_neg (by simp), Except.ok.injEq] at hr
      rw [← hr] at hf; cases hf
    | true =>
      rw [if_pos rfl, Except.ok.injEq] at hr
      subst hr
      simp only at hst ⊢
      subst hst
      rcases downsample_total T w w1 w2 with ⟨d0, d⟩ | ⟨-, d⟩ | ⟨-, -, v', acc', d⟩
      · rw [d] at w5
        cases w5
        refine ⟨?_, ?_⟩
        · refine le_trans ?_ (le_trans (norm_size w1 w2).1 (margin w3).2)
          exact zpow_le_zpow_right₀ (by norm_num) (by omega)
        · cases n.isNeg
          · exact hinf.1
          · exact hinf.2
      · rw [d] at w5; cases w5
      · rw [d] at w5; cases w5

/-- **C25, missed overflow.** Every numeral from the overflow threshold up to
`2^(maxExp + W - 1)` (with a margin of `slack`) should overflow, but is reported
as a success (or delegated, next to a tie).  The value returned is
* below `2^maxExp`: `2^(maxExp - 1)` with the right sign (half the magnitude);
* from there to `2^(maxExp + 1)`: no finite datum;
* above: a tiny finite datum of the opposite sign. -/
theorem C25_missed (T : FloatType) (fb : Fallback) (errno : Nat) (mem : List Nat) (str : Nat) (n : Numeral)
    (h : NumeralAt mem str n) (hx1 : overflowThreshold T ≤ n.absValue * (1 - slack T))
    (hx2 : n.absValue * (1 + slack T) < 2 ^ (T.maxExp + T.W - 1)) :
    ∃ r, atof T fb errno mem str = .ok r ∧ (Delegated T fb errno mem str r ∨
      ∃ v, Converted errno str n v r ∧
      ((n.absValue * (1 - slack T) < 2 ^ T.maxExp ∧ IsFinite T v ∧
          value T v = if n.isNeg then -2 ^ (T.maxExp - 1) else 2 ^ (T.maxExp - 1)) ∨
       (2 ^ T.maxExp ≤ n.absValue * (1 + slack T) ∧ n.absValue * (1 - slack T) < 2 ^ (T.maxExp + 1) ∧
          v < 2 ^ T.W ∧ ¬ IsFinite T v) ∨
       (2 ^ (T.maxExp + 1) ≤ n.absValue * (1 + slack T) ∧ IsFinite T v ∧
          (signBit T v = 1 ↔ n.isNeg = false) ∧ |value T v| < 2 ^ (T.minExp + T.W)))) := by
  have hs := slack_pos T
  have hs1 : slack T < 1 := by cases T <;> norm_num [slack]
  have hthr : (2 : ℚ) ^ (T.maxExp - 1) ≤ overflowThreshold T := by
    unfold overflowThreshold
    have a2 : (2 : ℚ) ^ (T.maxExp - T.p - 1) ≤ 2 ^ (T.maxExp - 1) := zpow_le_zpow_right₀ (by norm_num) (by omega)
    have a3 : (2 : ℚ) ^ T.maxExp = 2 * 2 ^ (T.maxExp - 1) := by rw [zpow_sub_one₀ (by norm_num)]; ring
    linarith
  have hthr1 : (1 : ℚ) ≤ 2 ^ (T.maxExp - 1) := one_le_zpow₀ (by norm_num) (by cases T <;> decide)
  have hx0 : 0 < n.absValue := by
    by_contra hc
    have : n.absValue * (1 - slack T) ≤ 0 := mul_nonpos_of_nonpos_of_nonneg (by linarith) (by linarith)
    linarith
  have hge : n.absValue * (1 - slack T) ≤ n.absValue := by nlinarith
  have hle : n.absValue ≤ n.absValue * (1 + slack T) := by nlinarith
  have hpos := text_pos h.valid
  rcases krosh_backward (T := T) h hx0.ne' with ⟨k1, -, -⟩ | ⟨k1, k2⟩ | ⟨w, w1, w2, w3, -, v, st, acc, w5, w6⟩
  · exfalso
    have : (10 : ℚ) ^ (T.powLo - 1 + T.digits10) ≤ 1 := zpow_le_one_of_nonpos₀ (by norm_num) (by cases T <;> decide)
    linarith
  · exfalso
    have h1 := pow_hi (T := T)
    have h3 : (0 : ℚ) < 2 ^ (T.maxExp + T.W - 1) := by positivity
    linarith
  obtain ⟨m1, m2⟩ := margin w3
  obtain ⟨z1, z2⟩ := norm_size w1 w2
  have he2 : w.e < T.maxExp := by have := exp_le_of z1 (lt_of_le_of_lt m2 hx2); omega
  have main : ∀ v', w.downsample T = .ok ⟨v', .success, true⟩ → (n.absValue * (1 - slack T) < 2 ^ T.maxExp ∧ v' = posInf T - 2 ^ (T.p - 1) ∨
       (2 ^ T.maxExp ≤ n.absValue * (1 + slack T) ∧ n.absValue * (1 - slack T) < 2 ^ (T.maxExp + 1) ∧
          v' < 2 ^ T.W ∧ ¬ IsFinite T v') ∨
       (2 ^ (T.maxExp + 1) ≤ n.absValue * (1 + slack T) ∧ IsFinite T v' ∧
          signBit T v' = 1 ∧ |value T v'| < 2 ^ (T.minExp + T.W))) := by
    intro v' hd
    rcases lt_or_ge ((w.f : ℚ) * 2 ^ w.e) (2 ^ T.maxExp) with hc | hc
    · left
      obtain ⟨v2, acc2, d1, d2⟩ := downsample_top w1 w2 (le_trans hx1 m1) hc
      rw [hd] at d1
      cases d1
      exact ⟨lt_of_le_of_lt m1 hc, d2 rfl⟩
    · right
      have he1 : T.maxExp - T.W < w.e := by have := exp_le_of hc z2; omega
      obtain ⟨E, q, acc2, e1, e2, e3⟩ := downsample_high w1 w2 he1 he2
      rw [hd] at e3
      cases e3
      have hmax : (expMax T : Int) = 2 * T.maxExp - 1 := by cases T <;> decide
      obtain ⟨p1, p2, p3⟩ := raw_pattern (T := T) (E := E) (q := q) (by omega) (by have := W_pos T; omega) e2
      by_cases hE : E = expMax T
      · left
        refine ⟨le_trans hc m2, lt_of_le_of_lt m1 (lt_of_lt_of_le z2 ?_), p1, p2 hE⟩
        exact zpow_le_zpow_right₀ (by norm_num) (by omega)
      · right
        obtain ⟨p4, p5, p6⟩ := p3 (by omega)
        refine ⟨le_trans (le_trans ?_ z1) m2, p4, p5, small_mag p6⟩
        exact zpow_le_zpow_right₀ (by norm_num) (by omega)
  have hst : st = .success := by
    rcases downsample_total T w w1 w2 with ⟨d, -⟩ | ⟨d, -⟩ | ⟨-, -, v', acc', d⟩
    · omega
    · exfalso
      have h1 := exp_le_of (le_trans hthr (le_trans hx1 m1)) z2
      have : emin T + 1 ≤ T.maxExp := by cases T <;> decide
      omega
    · rw [d] at w5; cases w5; rfl
  subst hst
  obtain ⟨r, r1, r2, r3⟩ := atof_numeral (fb := fb) (errno := errno) h w6
  refine ⟨r, r1, ?_⟩
  cases acc with
  | false => exact Or.inl (r3 rfl)
  | true =>
    right
    refine ⟨_, r2 rfl, ?_⟩
    obtain ⟨t1, t2⟩ := top_value T
    rcases main v w5 with ⟨g1, rfl⟩ | ⟨g1, g2, g3, g4⟩ | ⟨g1, g2, g3, g4⟩
    · left
      refine ⟨g1, ?_⟩
      cases n.isNeg
      · exact ⟨isFinite_of_lt t1, t2⟩
      · exact ⟨isFinite_neg (isFinite_of_lt t1), by simp only [if_true]; rw [value_neg (lt_posInf_lt t1), t2]⟩
    · right; left
      refine ⟨g1, g2, ?_⟩
      cases n.isNeg
      · exact ⟨g3, g4⟩
      · refine ⟨(signBit_neg g3).2.2, fun hc => g4 ?_⟩
        have := isFinite_neg hc
        rwa [if_pos rfl, neg_neg'] at this
    · right; right
      refine ⟨g1, ?_⟩
      cases n.isNeg
      · exact ⟨g2, by simpa using g3, g4⟩
      · refine ⟨isFinite_neg g2, ?_, ?_⟩
        · simp only [if_true]; rw [(signBit_neg g2.1).1, g3]; simp
        · simp only [if_true]; rw [value_neg g2.1, abs_neg]; exact g4

/-- **C25, the ideal claim is false:** "2e308" is read as a NaN, "1e309" as a
negative number, both with status success; "-5e577" as plus infinity. -/
theorem C25_refuted (fb : Fallback) (errno : Nat) :
    (atof .double fb errno (chars "2e308" ++ [0]) 0 = .ok ⟨0x7ff1ccf385ebc8a0, .success, 5, errno, false⟩ ∧
      IsNaN .double 0x7ff1ccf385ebc8a0) ∧
    (atof .double fb errno (chars "1e309" ++ [0]) 0 = .ok ⟨0x801640306766bac8, .success, 5, errno, false⟩ ∧
      IsFinite .double 0x801640306766bac8 ∧ value .double 0x801640306766bac8 < 0) ∧
    atof .double fb errno (chars "-5e577" ++ [0]) 0 = .ok ⟨posInf .double, .overflow, 6, errno, false⟩ := by
  refine ⟨⟨?_, by decide, by decide, by decide⟩, ⟨?_, ⟨by decide, by decide⟩, ?_⟩, ?_⟩
  · have : krosh .double (chars "2e308" ++ [0]) 0 = .ok ⟨0x7ff1ccf385ebc8a0, 5, .success, true⟩ := by decide +kernel
    rw [atof_of_krosh this (by decide)]; rfl
  · have : krosh .double (chars "1e309" ++ [0]) 0 = .ok ⟨0x801640306766bac8, 5, .success, true⟩ := by decide +kernel
    rw [atof_of_krosh this (by decide)]; rfl
  · unfold value
    rw [if_pos (by decide), mag_eq]
    have h1 : N .double (absPat .double 0x801640306766bac8) ≠ 0 := by decide +kernel
    have h2 : (0 : ℚ) < N .double (absPat .double 0x801640306766bac8) := by exact_mod_cast Nat.pos_of_ne_zero h1
    have := mul_pos h2 (emin_pos .double)
    linarith
  · have : krosh .double (chars "-5e577" ++ [0]) 0 = .ok ⟨posInf .double, 6, .overflow, true⟩ := by decide +kernel
    rw [atof_of_krosh this (by decide)]; rfl

/-- "-1e39" -/
def m1e39 : Numeral := ⟨some true, [1], none, some ⟨false, none, [3, 9]⟩⟩

theorem m1e39_at : NumeralAt (m1e39.text ++ [0]) 0 m1e39 :=
  numeralAt_cstr ⟨by decide, by intro e he; cases he; decide⟩ (by decide)
    (by intro e he; cases he; exact ⟨by decide, readable_of_lt (by decide)⟩)

theorem m1e39_abs : m1e39.absValue = 10 ^ 39 := by
  norm_num [m1e39, Numeral.absValue, Numeral.fracDigits, Numeral.expValue, ExpPart.value, digitsVal]
  decide

/-- The hypotheses of `C25_missed` are met by "-1e39" as float. -/
example (fb : Fallback) := C25_missed .float fb 0 _ 0 m1e39 m1e39_at
  (by rw [m1e39_abs]; norm_num [overflowThreshold, FloatType.maxExp, FloatType.p, slack])
  (by rw [m1e39_abs]; norm_num [FloatType.maxExp, FloatType.W, slack])

/-- "-1e48" -/
def m1e48 : Numeral := ⟨some true, [1], none, some ⟨false, none, [4, 8]⟩⟩

theorem m1e48_at : NumeralAt (m1e48.text ++ [0]) 0 m1e48 :=
  numeralAt_cstr ⟨by decide, by intro e he; cases he; decide⟩ (by decide)
    (by intro e he; cases he; exact ⟨by decide, readable_of_lt (by decide)⟩)

theorem m1e48_abs : m1e48.absValue = 10 ^ 48 := by
  norm_num [m1e48, Numeral.absValue, Numeral.fracDigits, Numeral.expValue, ExpPart.value, digitsVal]
  decide

/-- The hypotheses of `C25_overflow` are met by "-1e48" as float: minus infinity. -/
example (fb : Fallback) := C25_overflow .float fb 0 _ 0 m1e48 m1e48_at
  (by rw [m1e48_abs]; norm_num [FloatType.maxExp, FloatType.W, slack])

/-- And so are those of `C25_overflow_only`. -/
example (fb : Fallback) : ∃ r, atof .float fb 0 (m1e48.text ++ [0]) 0 = .ok r ∧ r.fellBack = false ∧ r.status = .overflow :=
  have ⟨_, h, _⟩ := C25_overflow .float fb 0 _ 0 m1e48 m1e48_at
    (by rw [m1e48_abs]; norm_num [FloatType.maxExp, FloatType.W, slack])
  ⟨_, h, rfl, rfl⟩

/-! ## C26 -/

/-- **C26, underflow.** A non-zero numeral of magnitude below the smallest
subnormal (with a margin of `slack`) gives zero with status underflow, and is
consumed; the zero has the sign of the numeral, unless the magnitude is below
`10^-42` / `10^-325`, where a minus may be lost. -/
theorem C26_underflow (T : FloatType) (fb : Fallback) (errno : Nat) (mem : List Nat) (str : Nat) (n : Numeral)
    (h : NumeralAt mem str n) (h0 : n.absValue ≠ 0) (hx : n.absValue * (1 + slack T) < 2 ^ emin T) :
    ∃ v, atof T fb errno mem str = .ok ⟨v, .underflow, str + n.text.length, errno, false⟩ ∧
      ((v = if n.isNeg then neg T 0 else 0) ∨ (v = 0 ∧ n.absValue < 10 ^ (T.powLo - 1 + T.digits10))) := by
  have hs := slack_pos T
  have hx0 : 0 < n.absValue := lt_of_le_of_ne (absValue_nonneg n) (Ne.symm h0)
  have hle : n.absValue ≤ n.absValue * (1 + slack T) := by nlinarith
  have hpos := text_pos h.valid
  rcases krosh_backward (T := T) h h0 with ⟨k1, -, k2⟩ | ⟨k1, -⟩ | ⟨w, w1, w2, w3, -, v, st, acc, w5, w6⟩
  · refine ⟨0, ?_, Or.inr ⟨rfl, k1⟩⟩
    rw [atof_of_krosh k2 (by dsimp only; omega)]; rfl
  · exfalso
    have h1 : (2 : ℚ) ^ emin T ≤ 1 := zpow_le_one_of_nonpos₀ (by norm_num) (by cases T <;> decide)
    have h2 : (1 : ℚ) ≤ 10 ^ (T.powHi + 1) := one_le_zpow₀ (by norm_num) (by cases T <;> decide)
    linarith
  · have hm := margin w3
    have hsz := norm_size w1 w2
    have he := exp_le_of hsz.1 (lt_of_le_of_lt hm.2 hx)
    rcases downsample_total T w w1 w2 with ⟨d, -⟩ | ⟨-, d⟩ | ⟨-, d, -⟩
    · exfalso
      have := W_pos T
      have : emin T + 1 ≤ T.maxExp := by cases T <;> decide
      omega
    · rw [d] at w5
      cases w5
      refine ⟨_, ?_, Or.inl rfl⟩
      rw [atof_of_krosh w6 (by dsimp only; omega)]; rfl
    · exfalso; omega

/-- **C26, underflow is reported only there** (without fallback): for double only
below the smallest subnormal (up to `slack`); for float also for magnitudes below
`10^-42`, and then only if no way to write the number with at most 9 digits has
an exponent of at least -50.  The value is a zero. -/
theorem C26_underflow_only (T : FloatType) (fb : Fallback) (errno : Nat) (mem : List Nat) (str : Nat) (n : Numeral)
    (h : NumeralAt mem str n) (r : AtofResult) (hr : atof T fb errno mem str = .ok r) (hf : r.fellBack = false)
    (hst : r.status = .underflow) :
    n.absValue ≠ 0 ∧ (r.value = 0 ∨ (n.isNeg = true ∧ r.value = neg T 0)) ∧
      (n.absValue * (1 - slack T) < 2 ^ emin T ∨
       (T = .float ∧ n.absValue < 10 ^ (-42 : Int) ∧
         ∀ (m : Nat) (k : Int), m < 10 ^ 9 → n.absValue = m * 10 ^ k → k < -50)) := by
  have hpos := text_pos h.valid
  by_cases h0 : n.absValue = 0
  · exfalso
    have hk := krosh_zero (T := T) h h0
    have hpos : 0 < (scanText n).length := by
      have h1 := scanText_length n
      have h2 : 0 < (allDigits n).length := List.length_pos_iff.mpr h.valid.1
      omega
    rw [atof_of_krosh hk (by dsimp only; omega)] at hr
    rw [if_pos rfl, Except.ok.injEq] at hr
    rw [← hr] at hst
    cases hst
  refine ⟨h0, ?_⟩
  have hx0 : 0 < n.absValue := lt_of_le_of_ne (absValue_nonneg n) (Ne.symm h0)
  have hge : n.absValue * (1 - slack T) ≤ n.absValue := by have := slack_pos T; nlinarith
  rcases krosh_backward (T := T) h h0 with ⟨k1, k2, k⟩ | ⟨-, k⟩ | ⟨w, w1, w2, w3, -, v, st, acc, w5, w6⟩
  · rw [atof_of_krosh k (by dsimp only; omega)] at hr
    rw [if_pos rfl, Except.ok.injEq] at hr
    refine ⟨Or.inl (by rw [← hr]), ?_⟩
    have hp := lt_of_lt_of_le k1 pow_lo
    by_cases hT : T = .float
    · right
      rw [if_pos hT] at hp
      subst hT
      exact ⟨rfl, hp, k2⟩
    · left
      rw [if_neg hT] at hp
      have := emin_pos T
      linarith
  · exfalso
    rw [atof_of_krosh k (by dsimp only; omega)] at hr
    rw [if_pos rfl, Except.ok.injEq] at hr
    rw [← hr] at hst
    cases hst
  · rw [atof_of_krosh w6 (by dsimp only; omega)] at hr
    cases acc with
    | false =>
      rw [if_neg (by simp), Except.ok.injEq] at hr
      rw [← hr] at hf; cases hf
    | true =>
      rw [if_pos rfl, Except.ok.injEq] at hr
      subst hr
      simp only at hst ⊢
      subst hst
      rcases downsample_total T w w1 w2 with ⟨-, d⟩ | ⟨d0, d⟩ | ⟨-, -, v', acc', d⟩
      · rw [d] at w5; cases w5
      · rw [d] at w5
        cases w5
        refine ⟨?_, Or.inl ?_⟩
        · cases n.isNeg
          · exact Or.inl rfl
          · exact Or.inr ⟨rfl, rfl⟩
        · refine lt_of_le_of_lt (margin w3).1 (lt_of_lt_of_le (norm_size w1 w2).2 ?_)
          exact zpow_le_zpow_right₀ (by norm_num) (by omega)
      · rw [d] at w5; cases w5

/-- **C26, premature underflow.** Every numeral between half the smallest
subnormal and the smallest subnormal (with a margin of `slack`) rounds to the
latter, but is read as zero with status underflow. -/
theorem C26_premature (T : FloatType) (fb : Fallback) (errno : Nat) (mem : List Nat) (str : Nat) (n : Numeral)
    (h : NumeralAt mem str n) (hx1 : 2 ^ emin T / 2 < n.absValue) (hx2 : n.absValue * (1 + slack T) < 2 ^ emin T) :
    ∃ b v, RoundsTo T n.value b ∧ |value T b| = 2 ^ emin T ∧ value T v = 0 ∧
      atof T fb errno mem str = .ok ⟨v, .underflow, str + n.text.length, errno, false⟩ := by
  have hu := emin_pos T
  have hx0 : 0 < n.absValue := by linarith
  have hle : n.absValue ≤ n.absValue * (1 + slack T) := by have := slack_pos T; nlinarith
  obtain ⟨v, v1, v2⟩ := C26_underflow T fb errno mem str n h hx0.ne' hx2
  have h1 : (1 : Nat) < posInf T := by cases T <;> decide
  have hN1 : N T 1 = 1 := by cases T <;> decide
  have hN2 : N T (1 + 1) = 2 := by cases T <;> decide
  have hv1 : value T 1 = 2 ^ emin T := by rw [value_of_lt h1, hN1]; simp
  have hid : Identifies T n.absValue 1 := by
    have e : n.absValue = (n.absValue / 2 ^ emin T) * 2 ^ emin T := by field_simp
    rw [e]
    refine closest_pos h1 (by positivity) (Or.inr ?_) ?_
    · rw [show (1 : Nat) - 1 = 0 from rfl, N_zero, hN1]
      have : 1 / 2 < n.absValue / 2 ^ emin T := by rw [lt_div_iff₀ hu]; linarith
      push_cast; linarith
    · rw [hN1, hN2]
      have : n.absValue / 2 ^ emin T < 1 := by rw [div_lt_one hu]; linarith
      push_cast; linarith
  have hz : value T 0 = 0 := by rw [value_of_lt (posInf_pos T), N_zero]; simp
  have hvz : value T v = 0 := by
    rcases v2 with rfl | ⟨rfl, -⟩
    · split_ifs
      · rw [value_neg (by positivity), hz, neg_zero]
      · exact hz
    · exact hz
  unfold Numeral.value
  cases n.isNeg with
  | false => exact ⟨1, v, identifies_roundsTo hid (by rw [hv1]; exact hu.ne'), by rw [hv1, abs_of_pos hu], hvz, v1⟩
  | true =>
    refine ⟨neg T 1, v, identifies_roundsTo (identifies_neg hid) ?_, ?_, hvz, v1⟩
    · rw [value_neg (lt_posInf_lt h1), hv1]; exact neg_ne_zero.mpr hu.ne'
    · rw [value_neg (lt_posInf_lt h1), hv1, abs_neg, abs_of_pos hu]

/-- "1e-45" as float: between half the smallest subnormal and the smallest subnormal. -/
def e45 : Numeral := ⟨none, [1], none, some ⟨false, some true, [4, 5]⟩⟩

theorem e45_at : NumeralAt (e45.text ++ [0]) 0 e45 :=
  numeralAt_cstr ⟨by decide, by intro e he; cases he; decide⟩ (by decide)
    (by intro e he; cases he; exact ⟨by decide, readable_of_lt (by decide)⟩)

theorem e45_abs : e45.absValue = 1 / 10 ^ 45 := by
  norm_num [e45, Numeral.absValue, Numeral.fracDigits, Numeral.expValue, ExpPart.value, digitsVal]

/-- **C26, the ideal claim is false:** "1e-45" rounds to the smallest positive
float but is read as zero with status underflow. -/
theorem C26_refuted (fb : Fallback) (errno : Nat) :
    ∃ b v, RoundsTo .float e45.value b ∧ |value .float b| = 2 ^ emin .float ∧ value .float v = 0 ∧
      atof .float fb errno (e45.text ++ [0]) 0 = .ok ⟨v, .underflow, 0 + e45.text.length, errno, false⟩ :=
  C26_premature .float fb errno _ 0 e45 e45_at
    (by rw [e45_abs]; norm_num [emin, FloatType.minExp, FloatType.p])
    (by rw [e45_abs]; norm_num [emin, FloatType.minExp, FloatType.p, slack])

/-- The hypotheses of `C26_underflow` and of `C26_underflow_only` are met by "1e-45" as float. -/
example (fb : Fallback) : ∃ r, atof .float fb 0 (e45.text ++ [0]) 0 = .ok r ∧ r.fellBack = false ∧ r.status = .underflow :=
  have ⟨_, h, _⟩ := C26_underflow .float fb 0 _ 0 e45 e45_at (by rw [e45_abs]; norm_num)
    (by rw [e45_abs]; norm_num [emin, FloatType.minExp, FloatType.p, slack])
  ⟨_, h, rfl, rfl⟩

/-- "123456789e-51" -/
def small51 : Numeral := ⟨none, [1,2,3,4,5,6,7,8,9], none, some ⟨false, some true, [5, 1]⟩⟩

theorem small51_abs : small51.absValue = 123456789 / 10 ^ 51 := by
  norm_num [small51, Numeral.absValue, Numeral.fracDigits, Numeral.expValue, ExpPart.value, digitsVal]

/-- **C26, spurious underflow of float:** "123456789e-51" is 88 times the smallest
positive float, but is read as zero with status underflow. -/
theorem C26_refuted_float (fb : Fallback) (errno : Nat) :
    atof .float fb errno (small51.text ++ [0]) 0 = .ok ⟨0, .underflow, 13, errno, false⟩ ∧
      88 * 2 ^ emin .float ≤ small51.value := by
  constructor
  · have : krosh .float (small51.text ++ [0]) 0 = .ok ⟨0, 13, .underflow, true⟩ := by decide +kernel
    rw [atof_of_krosh this (by decide)]; rfl
  · have : small51.value = small51.absValue := rfl
    rw [this, small51_abs]; norm_num [emin, FloatType.minExp, FloatType.p]

end Floaxie
