import Verif.Prop.DropInRange
import Verif.Prop.Strings

/-!
# Any C library reads back what `ftoa` printed (C89)
-/

namespace Floaxie

open Spec FloatType

/-- The letters words for NaN and infinity start with are not white space. -/
def NumLocale.LettersOk (L : NumLocale) : Prop :=
  ¬ L.space 'n'.toNat ∧ ¬ L.space 'N'.toNat ∧ ¬ L.space 'i'.toNat ∧ ¬ L.space 'I'.toNat

theorem cNum_lettersOk : NumLocale.LettersOk cNum := by
  show ¬ (_ ∨ _) ∧ ¬ (_ ∨ _) ∧ ¬ (_ ∨ _) ∧ ¬ (_ ∨ _)
  decide

/-- A word before the terminator is the longest one. -/
theorem longestWord_nul {b : Bool} {w : List Nat} (h : Word b w) (rest : List Nat) : LongestWord b w (w ++ 0 :: rest) :=
  ⟨h, List.prefix_append _ _, fun _ _ hw' hp =>
    (prefix_before (a := w) (b := rest) hp (fun h => word_nonzero hw' 0 h rfl)).length_le⟩

/-- What `strtod` does with a word before the terminator. -/
theorem strtod_word {T : FloatType} {L : NumLocale} (hL : L.point = '.'.toNat) (hs : NumLocale.LettersOk L) {errno : Nat} {s : Option Bool}
    {b : Bool} {w : List Nat} (hw : Word b w) {rest : List Nat} {v len errno' : Nat}
    (h : Strtod T L errno (signText s ++ w ++ 0 :: rest) v len errno') :
    len = (signText s ++ w).length ∧ errno' = errno ∧ (b = true → IsNaN T v) ∧
      (b = false → IsInf T v ∧ signBit T v = if s = some true then 1 else 0) := by
  have hn : Nul (signText s ++ w ++ 0 :: rest) 0 := by
    have := nul_str (pre := []) (s := signText s ++ w) (post := rest)
    simpa using this
  let fb : Fallback := fun _ _ _ => ⟨0, 0, 0⟩
  have hm : (signText s ++ w ++ 0 :: rest).drop 0 = signText s ++ (w ++ 0 :: rest) := by
    rw [List.drop_zero, List.append_assoc]
  obtain ⟨u, a1, a2, a3, a4⟩ := C33_words T fb errno _ 0 s b w _ hn hm (longestWord_nul hw rest)
  obtain ⟨r, r1, r2, r3, r4, r5⟩ := C82_words T L hL hs fb errno _ 0 s b w _ hn hm (longestWord_nul hw rest) v len errno' (by rw [List.drop_zero]; exact h)
  rw [a1] at r1
  have r1' := Except.ok.inj r1
  subst r1'
  refine ⟨?_, r3.symm, fun hb => (r4 hb).2, fun hb => ?_⟩
  · rw [List.length_append]
    simp only at r2
    omega
  · have := r5 hb
    simp only at this
    subst this
    exact ⟨a3 hb, a4⟩

/-- The least normal number is not printed too small. -/
theorem leastNormal_prints_above (T : FloatType) (bits : Nat) (hf : IsFinite T bits) (hv : |value T bits| = 2 ^ (T.minExp - 1))
    (n : Numeral) (hs : Prints T bits n.text) : 2 ^ (T.minExp - 1) ≤ |n.value| := by
  have hm : (2 : ℚ) ^ (T.minExp - 1) = 2 ^ (T.p - 1) * 2 ^ emin T := by
    rw [← zpow_natCast, ← zpow_add₀ (by norm_num)]
    congr 1; unfold emin; cases T <;> decide
  have ha : absPat T bits = 2 ^ (T.p - 1) := by
    have habs : |value T bits| = N T (absPat T bits) * 2 ^ emin T := by
      have hu := emin_pos T
      unfold value
      rw [mag_eq]
      split_ifs
      · rw [abs_neg, abs_of_nonneg (by positivity)]
      · rw [abs_of_nonneg (by positivity)]
    rw [habs, hm] at hv
    have h1 := mul_right_cancel₀ (emin_pos T).ne' hv
    have h2 : N T (absPat T bits) = 2 ^ (T.p - 1) := by exact_mod_cast h1
    have h3 : N T (2 ^ (T.p - 1)) = 2 ^ (T.p - 1) := by cases T <;> decide
    rcases lt_trichotomy (absPat T bits) (2 ^ (T.p - 1)) with h | h | h
    · have := N_lt (T := T) h; omega
    · exact h
    · have := N_lt (T := T) h; omega
  have hbits : bits = 2 ^ (T.p - 1) ∨ bits = 2 ^ (T.p - 1) + 2 ^ (T.W - 1) := by
    have := hf.1
    unfold absPat at ha
    cases T <;> simp only [FloatType.p, FloatType.W] at * <;> omega
  have key : ∀ (b : Nat) (m : Numeral), b < 2 ^ T.W → (toBasicString T b).toOption = some m.text → bits = b →
      2 ^ (T.minExp - 1) ≤ |m.value| → 2 ^ (T.minExp - 1) ≤ |n.value| := by
    intro b m h1 h2 h3 h4
    subst h3
    rw [numeral_text_inj _ _ (prints_unique hs (prints_eval h1 h2))]
    exact h4
  have d1 : (2 : ℚ) ^ (-1022 : Int) ≤ 22250738585072016 * 10 ^ (-324 : Int) := by
    have h : 10 ^ 324 ≤ 22250738585072016 * 2 ^ 1022 := by decide +kernel
    have h' : (10 : ℚ) ^ 324 ≤ 22250738585072016 * 2 ^ 1022 := by exact_mod_cast h
    rw [zpow_neg, zpow_neg, ← div_eq_mul_inv, ← one_div, div_le_div_iff₀ (by positivity) (by positivity), one_mul]
    exact h'
  have d2 : (2 : ℚ) ^ (-126 : Int) ≤ 11754944 * 10 ^ (-45 : Int) := by norm_num
  cases T with
  | float =>
    have e : FloatType.float.minExp - 1 = -126 := by decide
    rcases hbits with h | h
    · refine key _ ⟨none, [1], some [1,7,5,4,9,4,4], some ⟨false, some true, [3,8]⟩⟩ (by decide) (by decide +kernel) h ?_
      rw [e]; refine le_trans d2 (le_of_eq ?_)
      norm_num [Numeral.value, Numeral.absValue, Numeral.isNeg, Numeral.fracDigits, Numeral.expValue, ExpPart.value, digitsVal]
    · refine key _ ⟨some true, [1], some [1,7,5,4,9,4,4], some ⟨false, some true, [3,8]⟩⟩ (by decide) (by decide +kernel) h ?_
      rw [e]; refine le_trans d2 (le_of_eq ?_)
      norm_num [Numeral.value, Numeral.absValue, Numeral.isNeg, Numeral.fracDigits, Numeral.expValue, ExpPart.value, digitsVal]
  | double =>
    have e : FloatType.double.minExp - 1 = -1022 := by decide
    have f : ∀ s, |(⟨s, [2], some [2,2,5,0,7,3,8,5,8,5,0,7,2,0,1,6], some ⟨false, some true, [3,0,8]⟩⟩ : Numeral).value| =
        22250738585072016 * 10 ^ (-324 : Int) := by
      intro s
      have : (⟨s, [2], some [2,2,5,0,7,3,8,5,8,5,0,7,2,0,1,6], some ⟨false, some true, [3,0,8]⟩⟩ : Numeral).absValue =
          22250738585072016 * 10 ^ (-324 : Int) := by
        simp [Numeral.absValue, Numeral.fracDigits, Numeral.expValue, ExpPart.value, digitsVal]
      unfold Numeral.value
      split_ifs <;> rw [this] <;> simp [abs_of_pos]
    rcases hbits with h | h
    · refine key _ ⟨none, [2], some [2,2,5,0,7,3,8,5,8,5,0,7,2,0,1,6], some ⟨false, some true, [3,0,8]⟩⟩ (by decide) (by decide +kernel) h ?_
      rw [e, f]; exact d1
    · refine key _ ⟨some true, [2], some [2,2,5,0,7,3,8,5,8,5,0,7,2,0,1,6], some ⟨false, some true, [3,0,8]⟩⟩ (by decide) (by decide +kernel) h ?_
      rw [e, f]; exact d1

/-- A number printed below the least normal one is subnormal. -/
theorem prints_below_normal (T : FloatType) (bits : Nat) (hf : IsFinite T bits) (h0 : value T bits ≠ 0)
    (n : Numeral) (hs : Prints T bits n.text) (hn : |n.value| < 2 ^ (T.minExp - 1)) : |value T bits| < 2 ^ (T.minExp - 1) := by
  obtain ⟨m, -, m1, hid⟩ := C01_ftoa_identifies T bits hf h0
  obtain rfl : m = n := numeral_text_inj _ _ (prints_unique m1 hs)
  have hc : 2 ^ (T.p - 1) < posInf T := by cases T <;> decide
  have hN : N T (2 ^ (T.p - 1)) = 2 ^ (T.p - 1) := by cases T <;> decide
  have hm : (2 : ℚ) ^ (T.minExp - 1) = 2 ^ (T.p - 1) * 2 ^ emin T := by
    rw [← zpow_natCast, ← zpow_add₀ (by norm_num)]
    congr 1; unfold emin; cases T <;> decide
  have h1 : value T (2 ^ (T.p - 1)) = 2 ^ (T.minExp - 1) := by
    rw [value_of_lt hc, hN, hm]; push_cast; rfl
  have f1 : IsFinite T (2 ^ (T.p - 1)) := isFinite_of_lt hc
  have h2 : value T (neg T (2 ^ (T.p - 1))) = - 2 ^ (T.minExp - 1) := by rw [value_neg f1.1, h1]
  obtain ⟨q1, q2⟩ := abs_lt.mp hn
  by_contra hge
  rcases eq_or_lt_of_le (not_lt.mp hge) with he | hgt
  · exact absurd (leastNormal_prints_above T bits hf he.symm m hs) (not_le.mpr hn)
  · rcases lt_abs.mp hgt with hg | hg
    · have := hid.2.2 _ f1 (by rw [h1]; exact hg.ne)
      rw [h1, abs_of_neg (by linarith), abs_of_neg (by linarith)] at this
      linarith
    · have := hid.2.2 _ (isFinite_neg f1) (by rw [h2]; intro h; linarith)
      rw [h2, abs_of_pos (by linarith), abs_of_pos (by linarith)] at this
      linarith

/-- **C89.** Every value of the type, printed by `ftoa` and read by any C library's `strtof` / `strtod` / `wcstof` / `wcstod` in a
locale with decimal point `.`: the whole text is consumed; a NaN is read as a NaN, negative zero as zero, and every other
value - infinities, subnormal numbers and the powers of two that `atof` loses included - bit for bit; `errno` is not
touched, unless the value is subnormal (not zero) and the library sets `ERANGE` for subnormal results, as it may. -/
theorem C89_any_reader (T : FloatType) (L : NumLocale) (hL : L.point = '.'.toNat) (hl : NumLocale.LettersOk L)
    (bits : Nat) (hb : bits < 2 ^ T.W) (s : List Nat) (hs : Prints T bits s) (errno : Nat) (rest : List Nat)
    (v len errno' : Nat) (h : Strtod T L errno (s ++ 0 :: rest) v len errno') :
    len = s.length ∧ (IsNaN T bits → IsNaN T v) ∧ (¬ IsNaN T bits → v = if bits = neg T 0 then 0 else bits) ∧
      (errno' = errno ∨ (errno' = erange ∧ IsFinite T bits ∧ value T bits ≠ 0 ∧ |value T bits| < 2 ^ (T.minExp - 1))) := by
  rcases datum_kinds hb with hN | hI | hF
  · obtain rfl := prints_unique hs ((C08_ftoa_special T bits).1 hN)
    obtain ⟨a1, a2, a3, -⟩ := strtod_word (s := none) (b := true) (w := chars "nan") hL hl (.nan _ (by unfold Spells; decide)) h
    exact ⟨a1, fun _ => a3 rfl, fun hn => absurd hN hn, Or.inl a2⟩
  · have hnn : ¬ IsNaN T bits := fun h => h.2.2 hI.2.2
    have hne : bits ≠ neg T 0 := by
      rintro rfl
      have := hI.2.1
      revert this
      cases T <;> decide
    have hw : Word false (chars "inf") := .inf _ (by unfold Spells; decide)
    have hp := prints_unique hs ((C08_ftoa_special T bits).2.1 hI)
    have hb2 : signBit T bits = 0 ∨ signBit T bits = 1 := by unfold signBit; omega
    have key : len = s.length ∧ errno' = errno ∧ IsInf T v ∧ signBit T v = signBit T bits := by
      rcases hb2 with hz | hz
      · rw [if_neg (by omega)] at hp
        subst hp
        obtain ⟨a1, a2, -, a4⟩ := strtod_word (s := none) (b := false) (w := chars "inf") hL hl hw h
        exact ⟨a1, a2, (a4 rfl).1, by rw [(a4 rfl).2, hz]; rfl⟩
      · rw [if_pos hz] at hp
        subst hp
        obtain ⟨a1, a2, -, a4⟩ := strtod_word (s := some true) (b := false) (w := chars "inf") hL hl hw h
        exact ⟨a1, a2, (a4 rfl).1, by rw [(a4 rfl).2, hz]; rfl⟩
    obtain ⟨k1, k2, k3, k4⟩ := key
    exact ⟨k1, fun h => absurd h hnn, fun _ => by rw [if_neg hne]; exact isInf_unique k3 hI k4, Or.inl k2⟩
  · have hnn : ¬ IsNaN T bits := fun h => hF.2 h.2.1
    by_cases h0 : value T bits = 0
    · obtain rfl := prints_unique hs ((C08_ftoa_special T bits).2.2 hF h0)
      let n : Numeral := ⟨none, [0], none, none⟩
      let fb : Fallback := fun _ _ _ => ⟨0, 0, 0⟩
      have hat : NumeralAt (chars "0" ++ 0 :: rest) 0 n :=
        ⟨⟨by decide, by intro e he; cases he⟩, ⟨0, rest, rfl, by decide, fun _ => ⟨by decide, by decide, fun h => absurd h (by decide)⟩, fun _ => by decide⟩,
          by decide, by rintro e ⟨⟩, by rintro e ⟨⟩⟩
      have hz : ∀ d ∈ n.int ++ n.fracDigits, d = 0 := by decide
      have g1 := C34_zero T fb errno _ 0 n hat hz
      obtain ⟨r, r1, r2, r3, r4⟩ := C82_zero T L hL fb errno _ 0 n hat hz rfl (by
        intro c hc
        have : c = 0 := (Option.some.inj hc).symm
        subst this; decide) v len errno' (by rw [List.drop_zero]; exact h)
      rw [g1] at r1
      have r1' := Except.ok.inj r1
      subst r1'
      simp only at r2 r3 r4
      rw [if_neg (by decide)] at r2
      have hbz : bits = 0 ∨ bits = neg T 0 := by
        have := value_zero_iff.mp h0
        unfold absPat at this
        have hlt := hF.1
        have e : neg T 0 = 2 ^ (T.W - 1) := by cases T <;> decide
        rw [e]
        clear * - this hlt
        cases T <;> simp only [FloatType.W] at * <;> omega
      refine ⟨?_, fun h => absurd h hnn, fun _ => ?_, Or.inl r4.symm⟩
      · rw [show n.text.length - n.expText.length = 1 by decide] at r3
        rw [show (chars "0").length = 1 by decide]
        omega
      · rw [← r2]
        rcases hbz with rfl | rfl
        · split_ifs <;> rfl
        · rw [if_pos rfl]
    · obtain ⟨n, hv, n1, hid⟩ := C01_ftoa_identifies T bits hF h0
      obtain rfl := prints_unique hs n1
      have hrt := (C01_reader T bits hF h0 n hs bits).mpr rfl
      have hm0 : n.value ≠ 0 := by
        intro hz
        rw [hz] at hid
        have hz0 : IsFinite T 0 := isFinite_of_lt (posInf_pos T)
        have hv0 : value T 0 = 0 := value_zero_iff.mpr (by simp [absPat])
        have := hid.2.2 0 hz0 (by rw [hv0]; exact Ne.symm h0)
        rw [hv0] at this
        simp at this
        exact absurd this (not_lt.mpr (abs_nonneg _))
      have hend : EndsAt n 0 := ⟨by decide, fun _ => ⟨by decide, by decide, fun h => absurd h (by decide)⟩, fun _ => by decide⟩
      have ht : n.text ++ 0 :: rest = scanText n ++ (n.expText ++ 0 :: rest) := by
        rw [← List.append_assoc]; rfl
      rw [ht] at h
      obtain ⟨n', e1, e2, e3, e4, e5⟩ := strtod_number hL (absValue_ne_zero_iff.mp hm0) h
      rw [← ht] at e2
      obtain rfl : n' = n := numeral_text_inj _ _ (isSubject_unique e2 (isSubject_numeral hv hend hm0))
      have hne : bits ≠ neg T 0 := by
        rintro rfl
        apply h0
        rw [value_neg (by positivity), value_zero_iff.mpr (by simp [absPat]), neg_zero]
      rcases e5 with ⟨f1, f2⟩ | ⟨f1, -⟩
      · refine ⟨e4, fun h => absurd h hnn, fun _ => ?_, ?_⟩
        · rw [if_neg hne]; exact (C01_reader T bits hF h0 n' hs v).mp f1
        · rcases f2 with f2 | ⟨f2, f3⟩
          · exact Or.inl f2
          · exact Or.inr ⟨f2, hF, h0, prints_below_normal T bits hF h0 n' hs f3⟩
      · exact absurd hrt.2.1 (not_lt.mpr f1)

/-- The hypotheses can be met, for every value: it is printed, and there is a result of a conforming function. -/
theorem C89_hypotheses (T : FloatType) (bits : Nat) (hb : bits < 2 ^ T.W) (errno : Nat) (rest : List Nat) :
    ∃ s v len errno', Prints T bits s ∧ Strtod T cNum errno (s ++ 0 :: rest) v len errno' := by
  obtain ⟨s, -, h2, -⟩ := C11_to_string T bits hb
  obtain ⟨v, len, e, h⟩ := strtod_exists T cNum errno (s ++ 0 :: rest)
  exact ⟨s, v, len, e, h2, h⟩

/-- The text printed for -1.5. -/
example : ∃ v len e, Strtod .double cNum 0 (chars "-1.5" ++ 0 :: []) v len e ∧ v = 0xBFF8000000000000 ∧ len = 4 ∧ e = 0 := by
  obtain ⟨v, len, e, h⟩ := strtod_exists .double cNum 0 (chars "-1.5" ++ 0 :: [])
  have hp : Prints .double 0xBFF8000000000000 (chars "-1.5") := prints_eval (by decide) (by decide +kernel)
  obtain ⟨h1, -, h3, h4⟩ := C89_any_reader .double cNum rfl cNum_lettersOk _ (by decide) _ hp 0 [] v len e h
  refine ⟨v, len, e, h, ?_, h1, ?_⟩
  · rw [h3 (by unfold IsNaN; decide), if_neg (by decide)]
  · rcases h4 with h4 | ⟨-, -, -, h4⟩
    · exact h4
    · exfalso
      have hv : |value .double 0xBFF8000000000000| = 3 / 2 := by
        have e1 : signBit .double 0xBFF8000000000000 = 1 ∧ expField .double 0xBFF8000000000000 = 1023 ∧
          fracField .double 0xBFF8000000000000 = 2 ^ 51 ∧ emin .double = -1074 := by decide
        have e5 : (2 ^ (FloatType.double.p - 1) + 2 ^ 51 : Nat) = 6755399441055744 := by decide
        rw [value, e1.1, if_pos rfl, mag, e1.2.1, if_neg (by decide), e1.2.2.1, e1.2.2.2, e5]
        norm_num [abs_of_pos]
      rw [hv] at h4
      have : (2 : ℚ) ^ (FloatType.double.minExp - 1) ≤ 1 := zpow_le_one_of_nonpos₀ (by norm_num) (by decide)
      linarith

/-- **C89 needs the locale.** Where the decimal point is a comma, "1.5" is read as 1, and one character is consumed. -/
theorem C89_locale_refuted : Prints .double 0x3FF8000000000000 (chars "1.5") ∧
    ∀ errno rest v len errno', Strtod .double commaNum errno (chars "1.5" ++ 0 :: rest) v len errno' → value .double v = 1 ∧ len = 1 := by
  refine ⟨prints_eval (by decide) (by decide +kernel), fun errno rest v len errno' h => ?_⟩
  have hsp : ¬ commaNum.space '1'.toNat := by rintro (h | h) <;> revert h <;> decide
  let n1 : Numeral := ⟨none, [1], none, none⟩
  have hsub : IsSubject commaNum.point (n1.localText commaNum.point) ('1'.toNat :: (chars ".5" ++ 0 :: rest)) := by
    refine ⟨.decimal n1 ⟨by decide, by intro e he; cases he⟩, ⟨chars ".5" ++ 0 :: rest, rfl⟩, fun t' ht' hp => ?_⟩
    let n : Numeral := ⟨none, [1], some [5], none⟩
    have hp' : t' <+: scanText n ++ 0 :: rest := hp
    cases ht' with
    | decimal n' h => exact (prefix_before (a := chars "1") (b := '5'.toNat :: 0 :: rest) hp (localText_no_dot (by decide) n')).length_le
    | hexadecimal t h => exact (not_hex (n := n) (by decide) h hp').elim
    | word s b w h => exact (not_word (n := n) (by decide) h hp').elim
  refine ⟨?_, strtod_len (t := chars "1") (c := '1'.toNat) (R := chars ".5" ++ 0 :: rest) hsp hsub h⟩
  have hval : n1.value = 1 := by
    simp [n1, Numeral.value, Numeral.absValue, Numeral.isNeg, Numeral.fracDigits, Numeral.expValue, digitsVal]
  have hone : value .double 0x3FF0000000000000 = 1 := by
    have e1 : signBit .double 0x3FF0000000000000 = 0 ∧ expField .double 0x3FF0000000000000 = 1023 ∧
      fracField .double 0x3FF0000000000000 = 0 ∧ emin .double = -1074 := by decide
    have e5 : (2 ^ (FloatType.double.p - 1) + 0 : Nat) = 4503599627370496 := by decide
    rw [value, e1.1, if_neg (by decide), mag, e1.2.1, if_neg (by decide), e1.2.2.1, e1.2.2.2, e5]
    norm_num
  have hcall := strtod_call (R := chars ".5" ++ 0 :: rest) hsp h
  cases hcall with
  | nothing _ hno _ => exact absurd hsub.here (hno _ hsub.form)
  | number n v e' hv hs h0 hr =>
    obtain rfl := localText_inj (isSubject_unique hs hsub)
    have := roundsTo_le hr (b' := 0x3FF0000000000000) ⟨by decide, by decide⟩
    rw [hone, hval, sub_self, abs_zero] at this
    have := abs_eq_zero.mp (le_antisymm this (abs_nonneg _))
    linarith
  | zero n hv hs h0 =>
    obtain rfl := localText_inj (isSubject_unique hs hsub)
    rw [hval] at h0
    norm_num at h0
  | overflow n hv hs h0 =>
    obtain rfl := localText_inj (isSubject_unique hs hsub)
    rw [hval, abs_one] at h0
    have := thr_big
    norm_num at this
    linarith
  | hexadecimal t v e' h5 hs =>
    exact (not_hex (n := n1) (R := chars ".5" ++ 0 :: rest) (by decide) h5 hs.here).elim
  | word s b w v h5 hs =>
    exact (not_word (n := n1) (R := chars ".5" ++ 0 :: rest) (by decide) h5 hs.here).elim

end Floaxie
