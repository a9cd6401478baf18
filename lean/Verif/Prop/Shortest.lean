import Mathlib.Algebra.Order.Archimedean.Basic
import Verif.Proof.ShortMain

/-!
# Shortness of the printed text (C45 - C47)

The printed number is the shortest one that is well inside the rounding interval.
It need not be the shortest one that identifies the value (`C45_not_shortest`), and
subnormal numbers below `2^32` (`float`: `2^16`) times the least one may be printed with
up to ten (five) digits where fewer would do (`C45_subnormal`, `C45_few_digits`).
-/

namespace Floaxie

open FloatType Spec

/-- A decimal number in an interval without multiples of larger powers of ten is not
shorter. -/
theorem no_shorter {A B : ℚ} {ds : List (Fin 10)} {k : Int} (a1 : 0 < A)
    (a3 : (digitsVal ds * 10 ^ k : ℚ) ≤ B)
    (a5 : ∀ (n : Nat) (k' : Int), k < k' → ¬ (A ≤ n * 10 ^ k' ∧ (n * 10 ^ k' : ℚ) ≤ B))
    (hne : ds ≠ []) (hh : ds.head hne ≠ 0) {d : Nat} {j : Int} (c1 : A ≤ d * 10 ^ j)
    (c2 : (d * 10 ^ j : ℚ) ≤ B) : 10 ^ (ds.length - 1) ≤ d := by
  by_contra hlt
  push Not at hlt
  have hjk : j ≤ k := by
    by_contra hc
    exact a5 d j (by omega) ⟨c1, c2⟩
  have hD := digitsVal_ge hne hh
  have hk0 : (0 : ℚ) < 10 ^ k := by positivity
  have hmono : (10 : ℚ) ^ j ≤ 10 ^ k := zpow_le_zpow_right₀ (by norm_num) hjk
  have hlt' : (d : ℚ) ≤ 10 ^ (ds.length - 1) := by exact_mod_cast hlt.le
  have hD' : (10 : ℚ) ^ (ds.length - 1) ≤ digitsVal ds := by exact_mod_cast hD
  have e1 : A ≤ 10 ^ (ds.length - 1) * 10 ^ k := by
    refine le_trans c1 (mul_le_mul hlt' hmono (by positivity) (by positivity))
  have e2 : (10 : ℚ) ^ (ds.length - 1) * 10 ^ k ≤ B :=
    le_trans (mul_le_mul_of_nonneg_right hD' hk0.le) a3
  by_cases hL : ds.length - 1 = 0
  · rw [hL] at hlt
    have : d = 0 := by simpa using hlt
    subst this
    simp at c1
    linarith
  · refine a5 1 (((ds.length - 1 : ℕ) : ℤ) + k) (by omega) ?_
    rw [zpow_add₀ (by norm_num), zpow_natCast, Nat.cast_one, one_mul]
    exact ⟨e1, e2⟩

/-- For a normal number above the least one. -/
theorem shortest_above (T : FloatType) (bits : Nat) (h : AboveLeastNormal T bits) :
    ∃ (n : Numeral) (ds : List (Fin 10)) (k : Int), Prints T bits n.text ∧
      SignificantDigits n ds k ∧
      ∀ (d : Nat) (j : Int), SafelyInside T bits (d * 10 ^ j) → 10 ^ (ds.length - 1) ≤ d := by
  obtain ⟨A, B, ds, k, a1, a2, a3, a4, a5, a6, b1, ⟨hne, hh, hla⟩, b3, b4, b5⟩ := short_main T bits h
  refine ⟨_, ds, k, b5, ⟨hne, ?_, ?_, fmt_digits _ ds k hne, ?_⟩, ?_⟩
  · rw [List.head?_eq_some_head hne]; simpa using hh
  · rw [List.getLast?_eq_some_getLast hne]; simpa using hla
  · exact fmt_absValue _ ds k hne (fmtK b1 hne b4)
  · intro d j hd
    obtain ⟨c1, c2⟩ := a4 _ hd
    exact no_shorter a1 a3 a5 hne hh c1 c2

/-- A number between `c * 10^e` and `(c+1) * 10^e` has more digits than `c`. -/
theorem between_multiples {c m d : Nat} {e j : Int} (hc : 10 ^ m ≤ c * 10)
    (h1 : (c : ℚ) * 10 ^ e < d * 10 ^ j) (h2 : (d * 10 ^ j : ℚ) < (c + 1 : ℕ) * 10 ^ e) :
    10 ^ m ≤ d := by
  by_contra hlt
  push Not at hlt
  rcases lt_or_ge j e with hj | hj
  · have h3 : (d : ℚ) * 10 ^ j ≤ (c * 10 : ℕ) * 10 ^ (e - 1) := by
      refine mul_le_mul ?_ (zpow_le_zpow_right₀ (by norm_num) (by omega)) (by positivity) (by positivity)
      exact_mod_cast (hlt.le.trans hc)
    have h4 : ((c * 10 : ℕ) : ℚ) * 10 ^ (e - 1) = c * 10 ^ e := by
      rw [show e = 1 + (e - 1) by omega, zpow_add₀ (by norm_num : (10 : ℚ) ≠ 0), zpow_one]
      push_cast
      rw [show 1 + (e - 1) - 1 = e - 1 by omega]
      ring
    linarith
  · obtain ⟨i, rfl⟩ : ∃ i : Nat, j = e + i := ⟨(j - e).toNat, by omega⟩
    have he : (0 : ℚ) < 10 ^ e := by positivity
    rw [zpow_add₀ (by norm_num), zpow_natCast, mul_comm ((10 : ℚ) ^ e), ← mul_assoc] at h1 h2
    have h1' := lt_of_mul_lt_mul_right h1 he.le
    have h2' := lt_of_mul_lt_mul_right h2 he.le
    have h1n : c < d * 10 ^ i := by exact_mod_cast h1'
    have h2n : d * 10 ^ i < c + 1 := by exact_mod_cast h2'
    omega

/-- How many digits the least normal number is printed with, and a decimal of one digit
less just below its rounding interval. -/
theorem leastNormal_digits (T : FloatType) :
    ∃ (c m : Nat) (e : Int),
      (grisu2 T (2 ^ (T.p - 1)) (List.replicate 17 0) 0).toOption.map (fun r => r.2.1) = some (m + 1) ∧
      10 ^ m ≤ c * 10 ∧
      (c : ℚ) * 10 ^ e < (N T (2 ^ (T.p - 1) - 1) + N T (2 ^ (T.p - 1)) : ℚ) / 2 * 2 ^ emin T ∧
      (N T (2 ^ (T.p - 1)) + N T (2 ^ (T.p - 1) + 1) : ℚ) / 2 * 2 ^ emin T <
        ((c + 1 : ℕ) : ℚ) * 10 ^ e := by
  cases T
  · exact ⟨1175494, 7, -44, by decide +kernel, by decide, by decide +kernel,
      by decide +kernel⟩
  · exact ⟨2225073858507201, 16, -323, by decide +kernel, by decide,
      by decide +kernel, by decide +kernel⟩

/-- **C45.** For every finite value other than zero: if its magnitude is at least `2^32`
(`float`: `2^16`) times that of the least positive value - all normal numbers and the larger
subnormal ones - or if the text has more than 10 (`float`: 5) significant digits, then no
decimal number `d * 10^j` that lies safely inside the rounding interval has fewer significant
digits than the printed one. -/
theorem C45_shortest (T : FloatType) (bits : Nat) (hf : IsFinite T bits) (h0 : value T bits ≠ 0) :
    ∃ (n : Numeral) (ds : List (Fin 10)) (k : Int), Prints T bits n.text ∧
      SignificantDigits n ds k ∧
      (2 ^ (T.W / 2) * mag T 1 ≤ |value T bits| ∨ fewDigits T < ds.length →
        ∀ (d : Nat) (j : Int), SafelyInside T bits (d * 10 ^ j) → 10 ^ (ds.length - 1) ≤ d) := by
  have ha := abs_ne_zero_of_value h0
  by_cases hl : absPat T bits = 2 ^ (T.p - 1)
  · obtain ⟨ds, k, b1, ⟨hne, hh, hla⟩, b3, b4, -, -, hg, b5⟩ := ftoa_main'' T (absPat T bits) (absPat_lt_posInf hf) ha
    refine ⟨_, ds, k, b5 bits hf.1 rfl, ⟨hne, ?_, ?_, fmt_digits _ ds k hne, ?_⟩, ?_⟩
    · rw [List.head?_eq_some_head hne]; simpa using hh
    · rw [List.getLast?_eq_some_getLast hne]; simpa using hla
    · exact fmt_absValue _ ds k hne (fmtK b1 hne b4)
    · rintro - d j hd
      obtain ⟨c, m, e, q1, q5, q6, q7⟩ := leastNormal_digits T
      have hlen : ds.length ≤ 17 := b1.trans (by cases T <;> decide)
      have hg' := hg (List.replicate 17 0) (by rw [List.length_replicate]; exact hlen)
      rw [hl] at hg'
      rw [hg'] at q1
      have hl' : ds.length = m + 1 := Option.some.inj q1
      have hst : 0 ≤ stepAbove T bits / margin T := by
        apply div_nonneg _ (by positivity)
        rw [stepAbove_eq hf]
        have : (N T (absPat T bits) : ℚ) ≤ N T (absPat T bits + 1) := by
          exact_mod_cast N_le (Nat.le_succ _)
        exact mul_nonneg (by linarith) (emin_pos T).le
      obtain ⟨d1, d2⟩ := hd
      rw [(mids_eq hf).1, hl] at d1
      rw [(mids_eq hf).2, hl] at d2
      rw [show ds.length - 1 = m by omega]
      exact between_multiples (j := j) q5 (lt_of_lt_of_le q6 (by linarith)) (lt_of_le_of_lt (by linarith) q7)
  · obtain ⟨A, B, ds, k, a1, a2, a3, a4, a5, a6, b1, ⟨hne, hh, hla⟩, b3, b4, b5⟩ := brief_main T bits hf ha hl
    refine ⟨_, ds, k, b5, ⟨hne, ?_, ?_, fmt_digits _ ds k hne, ?_⟩, ?_⟩
    · rw [List.head?_eq_some_head hne]; simpa using hh
    · rw [List.getLast?_eq_some_getLast hne]; simpa using hla
    · exact fmt_absValue _ ds k hne (fmtK b1 hne b4)
    · intro hor d j hd
      obtain ⟨c1, c2⟩ := a4 _ hd
      refine no_shorter a1 a3 (a5 (hor.imp_left ?_)) hne hh c1 c2
      intro hm
      have hm0 : 0 ≤ mag T bits := by rw [mag_eq]; have := emin_pos T; positivity
      have habs : |value T bits| = mag T bits := by
        unfold value; split_ifs
        · rw [abs_neg, abs_of_nonneg hm0]
        · rw [abs_of_nonneg hm0]
      rw [habs, mag_eq, mag_eq] at hm
      have hN1 : N T (absPat T 1) = 1 := by cases T <;> decide
      rw [hN1, Nat.cast_one, one_mul] at hm
      have h1 : ((2 ^ (T.W / 2) : ℕ) : ℚ) ≤ N T (absPat T bits) := by
        have := le_of_mul_le_mul_right hm (emin_pos T)
        exact_mod_cast this
      have h2 : 2 ^ (T.W / 2) ≤ N T (absPat T bits) := by exact_mod_cast h1
      have h3 : N T (2 ^ (T.W / 2)) = 2 ^ (T.W / 2) := by cases T <;> decide
      by_contra hc
      have := N_lt (T := T) (not_le.mp hc)
      omega

theorem int_above {T : FloatType} {bits n : Nat} (hf : IsFinite T bits) (h0 : 0 < n)
    (hv : mag T bits = n) : AboveLeastNormal T bits := by
  refine ⟨hf, ?_⟩
  rw [absPat_mod]
  by_contra hc
  push Not at hc
  have h1 := N_le (T := T) hc
  have h2 : N T (2 ^ (T.p - 1)) = 2 ^ (T.p - 1) := by cases T <;> decide
  rw [h2] at h1
  rw [mag_eq] at hv
  have h3 : (1 : ℚ) ≤ n := by exact_mod_cast h0
  have h4 : (N T (absPat T bits) : ℚ) ≤ 2 ^ (T.p - 1) := by exact_mod_cast h1
  have h5 : (2 : ℚ) ^ (T.p - 1) * 2 ^ emin T < 1 := by
    rw [← zpow_natCast, ← zpow_add₀ (by norm_num)]
    apply zpow_lt_one_of_neg₀ (by norm_num)
    cases T <;> decide
  have := mul_le_mul_of_nonneg_right h4 (emin_pos T).le
  linarith

theorem fmt_int (neg : Bool) (ds : List (Fin 10)) (k : Int) (hk : 0 ≤ k)
    (hm : (ds.length : Int) + k ≤ 16) :
    fmtNumeral neg ds k = ⟨if neg then some true else none, ds ++ List.replicate k.toNat 0, none,
      none⟩ := by
  unfold fmtNumeral
  dsimp only
  rw [if_pos (by omega), if_pos hk]

/-- **C46.** Every integer up to `2^p` (9007199254740992 / 16777216) is printed as
its decimal digits, with '-' in front if negative, and nothing else. -/
theorem C46_integers (T : FloatType) (bits n : Nat) (hf : IsFinite T bits) (h0 : 0 < n)
    (hn : n ≤ 2 ^ T.p) (hv : |value T bits| = n) :
    ∃ l : List (Fin 10), digitsVal l = n ∧ l.head? ≠ some 0 ∧
      Prints T bits ((if value T bits < 0 then ['-'.toNat] else []) ++ l.map digitChar) := by
  have hm : mag T bits = n := by
    have hm0 : 0 ≤ mag T bits := by rw [mag_eq]; have := emin_pos T; positivity
    unfold value at hv
    split_ifs at hv
    · rwa [abs_neg, abs_of_nonneg hm0] at hv
    · rwa [abs_of_nonneg hm0] at hv
  have habove := int_above hf h0 hm
  have hvz : value T bits ≠ 0 := by
    intro h; rw [h, abs_zero] at hv
    have : (0 : ℚ) < n := by exact_mod_cast h0
    linarith
  obtain ⟨A, B, ds, k, a1, a2, a3, a4, a5, a6, b1, ⟨hne, hh, hla⟩, b3, b4, b5⟩ :=
    short_main T bits habove
  have hw := safelyInside_of_wellInside habove (wellInside_self habove)
  rw [hm] at hw
  obtain ⟨c1, c2⟩ := a4 _ hw
  have hk : 0 ≤ k := by
    by_contra hc
    refine a5 n 0 (by omega) ⟨by simpa using c1, by simpa using c2⟩
  obtain ⟨k, rfl⟩ := Int.eq_ofNat_of_zero_le hk
  have hal := absPat_lt_posInf hf
  obtain ⟨m1, m2⟩ := identifies_mids hal (abs_ne_zero_of_value hvz) b3
  have hnn := habove.2
  rw [absPat_mod] at hnn
  obtain ⟨g1, g2, g3, g4, g5⟩ := normal_gaps hnn
  rw [mag_eq] at hm
  have hu := emin_pos T
  have hU : (ulpN T (absPat T bits) : ℚ) * 2 ^ emin T ≤ 2 := by
    have e1 : ((2 : ℚ) ^ (T.p - 1) * ulpN T (absPat T bits)) ≤ N T (absPat T bits) := by
      exact_mod_cast g5
    have e2 := mul_le_mul_of_nonneg_right e1 hu.le
    rw [hm] at e2
    have e3 : (n : ℚ) ≤ 2 ^ (T.p - 1) * 2 := by
      rw [← pow_succ, show T.p - 1 + 1 = T.p by cases T <;> decide]
      exact_mod_cast hn
    have e4 : (0 : ℚ) < 2 ^ (T.p - 1) := by positivity
    rw [mul_assoc] at e2
    exact le_of_mul_le_mul_left (le_trans e2 e3) e4
  have g1' : (N T (absPat T bits) : ℚ) = N T (absPat T bits - 1) + ulpN T (absPat T bits - 1) := by
    exact_mod_cast g1
  have g2' : (N T (absPat T bits + 1) : ℚ) = N T (absPat T bits) + ulpN T (absPat T bits) := by
    exact_mod_cast g2
  have g3' : (ulpN T (absPat T bits - 1) : ℚ) ≤ ulpN T (absPat T bits) := by exact_mod_cast g3
  have g3'' := mul_le_mul_of_nonneg_right g3' hu.le
  have hD : (digitsVal ds : ℚ) * 10 ^ (k : ℤ) = (digitsVal ds * 10 ^ k : ℕ) := by
    push_cast; rw [zpow_natCast]
  rw [hD] at m1 m2
  have heq : digitsVal ds * 10 ^ k = n := by
    have l1 : (n : ℚ) - 1 < (digitsVal ds * 10 ^ k : ℕ) := by
      have : (N T (absPat T bits - 1) : ℚ) = N T (absPat T bits) - ulpN T (absPat T bits - 1) := by
        linarith
      rw [this] at m1
      linarith
    have l2 : ((digitsVal ds * 10 ^ k : ℕ) : ℚ) < n + 1 := by
      rw [g2'] at m2
      linarith
    have l1' : n < digitsVal ds * 10 ^ k + 1 := by
      have : (n : ℚ) < (digitsVal ds * 10 ^ k : ℕ) + 1 := by linarith
      exact_mod_cast this
    have l2' : digitsVal ds * 10 ^ k < n + 1 := by exact_mod_cast l2
    omega
  have hlen : ds.length + k ≤ 16 := by
    have h1 := digitsVal_ge hne hh
    have h2 : 10 ^ (ds.length - 1) * 10 ^ k ≤ n := by
      rw [← heq]; exact Nat.mul_le_mul_right _ h1
    rw [← pow_add] at h2
    have h3 : n < 10 ^ 16 := lt_of_le_of_lt hn (by cases T <;> decide)
    have h4 := (Nat.pow_lt_pow_iff_right (by norm_num : 1 < 10)).mp (lt_of_le_of_lt h2 h3)
    have : 0 < ds.length := List.length_pos_iff.mpr hne
    omega
  refine ⟨ds ++ List.replicate k 0, ?_, ?_, ?_⟩
  · rw [digitsVal_append, digitsVal_replicate_zero, List.length_replicate, add_zero, heq]
  · rw [List.head?_append_of_ne_nil _ hne, List.head?_eq_some_head hne]; simpa using hh
  · rw [fmt_text, fmtBody, fmt_int _ ds k (by omega) (by omega)] at b5
    have hs := value_sign hf hvz
    convert b5 using 2
    · by_cases h : signBit T bits = 1
      · simp [h, hs.mp h]
      · simp [h, hs.not.mp h]
    · simp [Numeral.text, Numeral.mantText, Numeral.expText, signText]

/-- Two decimals of few digits are not too near to each other. -/
theorem decimal_spacing {P d1 d2 : Nat} {j1 j2 : Int} (hd1 : d1 < 10 ^ P) (hd2 : d2 < 10 ^ P)
    (h1 : 0 < d1) (h : (d1 * 10 ^ j1 : ℚ) < d2 * 10 ^ j2) :
    (d1 * 10 ^ j1 : ℚ) < (d2 * 10 ^ j2 - d1 * 10 ^ j1) * 10 ^ P := by
  set y1 : ℚ := d1 * 10 ^ j1 with hy1
  set y2 : ℚ := d2 * 10 ^ j2 with hy2
  have hpos : 0 < y1 := by
    have : (0 : ℚ) < d1 := by exact_mod_cast h1
    positivity
  obtain ⟨m, hm1, hm2⟩ := exists_mem_Ico_zpow hpos (show (1 : ℚ) < 10 by norm_num)
  -- a decimal at least `10^m` is a multiple of `10^(m+1-P)`
  have mult : ∀ (d : Nat) (j : Int), d < 10 ^ P → (10 : ℚ) ^ m ≤ d * 10 ^ j →
      ∃ c : Int, (d * 10 ^ j : ℚ) = c * 10 ^ (m + 1 - P) := by
    intro d j hd hge
    have hj : m + 1 - P ≤ j := by
      by_contra hc
      have hdP : (d : ℚ) < 10 ^ P := by exact_mod_cast hd
      have : (d : ℚ) * 10 ^ j < 10 ^ m := by
        calc (d : ℚ) * 10 ^ j < 10 ^ P * 10 ^ j := mul_lt_mul_of_pos_right hdP (by positivity)
          _ = 10 ^ ((P : ℤ) + j) := by rw [zpow_add₀ (by norm_num), zpow_natCast]
          _ ≤ 10 ^ m := zpow_le_zpow_right₀ (by norm_num) (by omega)
      linarith
    obtain ⟨i, hi⟩ := Int.eq_ofNat_of_zero_le (show 0 ≤ j - (m + 1 - P) by omega)
    refine ⟨d * 10 ^ i, ?_⟩
    have : j = i + (m + 1 - P) := by omega
    rw [this, zpow_add₀ (by norm_num), zpow_natCast]
    push_cast; ring
  obtain ⟨c1, e1⟩ := mult d1 j1 hd1 hm1
  obtain ⟨c2, e2⟩ := mult d2 j2 hd2 (le_trans hm1 h.le)
  rw [← hy1] at e1
  rw [← hy2] at e2
  have hq : (0 : ℚ) < 10 ^ (m + 1 - P) := by positivity
  have hc : c1 < c2 := by
    rw [e1, e2] at h
    exact_mod_cast lt_of_mul_lt_mul_right h hq.le
  have hc' : (1 : ℚ) ≤ c2 - c1 := by
    have : c1 + 1 ≤ c2 := hc
    have : (c1 : ℚ) + 1 ≤ c2 := by exact_mod_cast this
    linarith
  have e3 : (10 : ℚ) ^ (m + 1 - P) ≤ y2 - y1 := by
    rw [e1, e2, ← sub_mul]
    nlinarith
  calc y1 < 10 ^ (m + 1) := hm2
    _ = 10 ^ (m + 1 - P) * 10 ^ P := by
      rw [← zpow_natCast, ← zpow_add₀ (by norm_num)]; congr 1; omega
    _ ≤ _ := mul_le_mul_of_nonneg_right e3 (by positivity)

/-- **C47.** A decimal number of at most 15 / 6 significant digits is printed as
itself: if it lies safely inside the rounding interval of a normal number above the
least one, then the text printed for that number has exactly that decimal value. -/
theorem C47_short_decimal (T : FloatType) (bits : Nat) (h : AboveLeastNormal T bits) (d : Nat)
    (j : Int) (hd : d < 10 ^ decimalDigits T) (hw : SafelyInside T bits (d * 10 ^ j)) :
    ∃ n : Numeral, Prints T bits n.text ∧ n.absValue = d * 10 ^ j := by
  obtain ⟨A, B, ds, k, a1, a2, a3, a4, a5, a6, b1, ⟨hne, hh, hla⟩, b3, b4, b5⟩ := short_main T bits h
  refine ⟨_, b5, ?_⟩
  rw [fmt_absValue _ ds k hne (fmtK b1 hne b4)]
  obtain ⟨c1, c2⟩ := a4 _ hw
  have hf := h.1
  have hn := h.2
  rw [absPat_mod] at hn
  have hal := absPat_lt_posInf hf
  have hp0 : 0 < 2 ^ (T.p - 1) := by positivity
  obtain ⟨m1, m2⟩ := identifies_mids hal (by omega) b3
  obtain ⟨q1, q2⟩ := mids_eq hf
  rw [← q1] at m1
  rw [← q2] at m2
  have hwidth : (midAbove T bits - midBelow T bits) * 10 ^ decimalDigits T < midBelow T bits := by
    rw [q1, q2]
    obtain ⟨g1, g2, g3, g4, g5⟩ := normal_gaps hn
    have hu := emin_pos T
    have hU : (0 : ℚ) < ulpN T (absPat T bits) := by exact_mod_cast ulpN_pos _ _
    have g1' : (N T (absPat T bits - 1) : ℚ) = N T (absPat T bits) - ulpN T (absPat T bits - 1) := by
      have : (N T (absPat T bits) : ℚ) = N T (absPat T bits - 1) + ulpN T (absPat T bits - 1) := by
        exact_mod_cast g1
      linarith
    have g2' : (N T (absPat T bits + 1) : ℚ) = N T (absPat T bits) + ulpN T (absPat T bits) := by
      exact_mod_cast g2
    have g3' : (ulpN T (absPat T bits - 1) : ℚ) ≤ ulpN T (absPat T bits) := by exact_mod_cast g3
    have g5' : ((2 : ℚ) ^ (T.p - 1) * ulpN T (absPat T bits)) ≤ N T (absPat T bits) := by
      exact_mod_cast g5
    rw [g1', g2']
    have e : ((N T (absPat T bits) + (N T (absPat T bits) + ulpN T (absPat T bits)) : ℚ) / 2 * 2 ^ emin T -
        (N T (absPat T bits) - ulpN T (absPat T bits - 1) + N T (absPat T bits) : ℚ) / 2 * 2 ^ emin T) *
        10 ^ decimalDigits T =
        ((ulpN T (absPat T bits) + ulpN T (absPat T bits - 1)) / 2 * 10 ^ decimalDigits T) *
          2 ^ emin T := by ring
    rw [e]
    apply mul_lt_mul_of_pos_right _ hu
    generalize (ulpN T (absPat T bits) : ℚ) = U at *
    generalize (ulpN T (absPat T bits - 1) : ℚ) = V at *
    generalize (N T (absPat T bits) : ℚ) = M at *
    cases T <;> norm_num [decimalDigits, FloatType.p] at * <;> linarith
  -- the printed number has at most as many digits
  have hD : digitsVal ds < 10 ^ decimalDigits T := by
    obtain ⟨n', ds', k', p1, p2, p3⟩ := shortest_above T bits h
    have hv : (digitsVal ds' : ℚ) * 10 ^ k' = digitsVal ds * 10 ^ k := by
      have := numeral_text_inj _ _ (prints_unique p1 b5)
      rw [← p2.value, this, fmt_absValue _ ds k hne (fmtK b1 hne b4)]
    have hle := p3 d j hw
    have hlen : ds'.length ≤ decimalDigits T := by
      have := (Nat.pow_lt_pow_iff_right (by norm_num : 1 < 10)).mp (lt_of_le_of_lt hle hd)
      omega
    have hlt : digitsVal ds' < 10 ^ decimalDigits T :=
      lt_of_lt_of_le (digitsVal_lt ds') (Nat.pow_le_pow_right (by norm_num) hlen)
    have hkk : k' ≤ k := by
      by_contra hc
      refine a5 (digitsVal ds') k' (by omega) ⟨by rw [hv]; exact a2, by rw [hv]; exact a3⟩
    obtain ⟨i, hi⟩ := Int.eq_ofNat_of_zero_le (show 0 ≤ k - k' by omega)
    have : k = i + k' := by omega
    rw [this, zpow_add₀ (by norm_num), ← mul_assoc] at hv
    have hv2 := mul_right_cancel₀ (show (10 : ℚ) ^ k' ≠ 0 by positivity) hv
    rw [zpow_natCast] at hv2
    have hv3 : digitsVal ds' = digitsVal ds * 10 ^ i := by exact_mod_cast hv2
    have : 0 < 10 ^ i := by positivity
    nlinarith
  have hDpos : 0 < digitsVal ds := lt_of_lt_of_le (by positivity) (digitsVal_ge hne hh)
  have hdpos : 0 < d := by
    rcases Nat.eq_zero_or_pos d with rfl | h
    · simp at c1; linarith
    · exact h
  have hcut : 0 ≤ stepAbove T bits / margin T := by
    apply div_nonneg _ (by positivity)
    rw [stepAbove_eq h.1]
    have : (N T (absPat T bits) : ℚ) ≤ N T (absPat T bits + 1) := by exact_mod_cast N_le (Nat.le_succ _)
    exact mul_nonneg (by linarith) (emin_pos T).le
  obtain ⟨w1, w2⟩ := hw
  have hP : (0 : ℚ) < 10 ^ decimalDigits T := by positivity
  rcases lt_trichotomy ((digitsVal ds : ℚ) * 10 ^ k) (d * 10 ^ j) with hlt | heq | hlt
  · exfalso
    have := decimal_spacing hD hd hDpos hlt
    have h2 : (d * 10 ^ j - digitsVal ds * 10 ^ k : ℚ) * 10 ^ decimalDigits T ≤
        (midAbove T bits - midBelow T bits) * 10 ^ decimalDigits T :=
      mul_le_mul_of_nonneg_right (by linarith) hP.le
    linarith
  · exact heq
  · exfalso
    have := decimal_spacing hd hD hdpos hlt
    have h2 : (digitsVal ds * 10 ^ k - d * 10 ^ j : ℚ) * 10 ^ decimalDigits T ≤
        (midAbove T bits - midBelow T bits) * 10 ^ decimalDigits T :=
      mul_le_mul_of_nonneg_right (by linarith) hP.le
    linarith

/-! ## What does not hold -/

theorem identifies_int {T : FloatType} {a V : Nat} (ha : a < posInf T)
    (h1 : N T (a - 1) + N T a < 2 * (V * 2 ^ (-emin T).toNat))
    (h2 : 2 * (V * 2 ^ (-emin T).toNat) < N T a + N T (a + 1)) : Identifies T V a := by
  have e : ((V * 2 ^ (-emin T).toNat : ℕ) : ℚ) * 2 ^ emin T = V := by
    push_cast
    rw [mul_assoc, ← zpow_natCast, ← zpow_add₀ (by norm_num),
      show (((-emin T).toNat : ℕ) : ℤ) + emin T = 0 by cases T <;> decide]
    simp
  rw [← e]
  refine closest_pos ha (by positivity) (Or.inr ?_) ?_
  · exact_mod_cast h1
  · exact_mod_cast h2

theorem identifies_ratio {T : FloatType} {a V D : Nat} (ha : a < posInf T) (hD : 0 < D)
    (h1 : (N T (a - 1) + N T a) * D < 2 * (V * 2 ^ (-emin T).toNat))
    (h2 : 2 * (V * 2 ^ (-emin T).toNat) < (N T a + N T (a + 1)) * D) :
    Identifies T (V / D : ℚ) a := by
  have hD' : (0 : ℚ) < D := by exact_mod_cast hD
  have e : ((V * 2 ^ (-emin T).toNat : ℕ) : ℚ) / D * 2 ^ emin T = V / D := by
    push_cast
    rw [div_mul_eq_mul_div, mul_assoc, ← zpow_natCast, ← zpow_add₀ (by norm_num),
      show (((-emin T).toNat : ℕ) : ℤ) + emin T = 0 by cases T <;> decide]
    simp
  rw [← e]
  refine closest_pos ha (by positivity) (Or.inr ?_) ?_
  · rw [← mul_div_assoc, lt_div_iff₀ hD']
    exact_mod_cast h1
  · rw [← mul_div_assoc, div_lt_iff₀ hD']
    exact_mod_cast h2

theorem prints_of_string {T : FloatType} {bits : Nat} {s : List Nat} (hb : bits < 2 ^ T.W)
    (h : toBasicString T bits = .ok s) : Prints T bits s := by
  obtain ⟨t, h1, h2, -⟩ := C11_to_string T bits hb
  rw [h, Except.ok.injEq] at h1
  rw [h1]; exact h2

/-- A number for which a shorter decimal is nearest to it than the printed one. -/
def longPrinted : FloatType → Nat
  | .float => 0x599c40ce
  | .double => 0x446d0b73baaa5627

/-- **C45, refuted in general.** A `double` is printed with 17 digits although
4286246292280548e6 (16 digits) identifies it; a `float` is printed with 8 digits
although 5497669e9 (7 digits) identifies it. -/
theorem C45_not_shortest :
    (AboveLeastNormal .double (longPrinted .double) ∧
      Prints .double (longPrinted .double) (chars "4.2862462922805485e21") ∧
      Identifies .double (4286246292280548 * 10 ^ 6) (longPrinted .double)) ∧
    (AboveLeastNormal .float (longPrinted .float) ∧
      Prints .float (longPrinted .float) (chars "5497668900000000") ∧
      Identifies .float (5497669 * 10 ^ 9) (longPrinted .float)) := by
  refine ⟨⟨?_, ?_, ?_⟩, ?_, ?_, ?_⟩
  · exact ⟨isFinite_of_lt (by decide), by decide⟩
  · exact prints_of_string (by decide) (by decide +kernel)
  · rw [show (4286246292280548 * 10 ^ 6 : ℚ) = (4286246292280548000000 : ℕ) by norm_num]
    exact identifies_int (by decide) (by decide +kernel) (by decide +kernel)
  · exact ⟨isFinite_of_lt (by decide), by decide⟩
  · exact prints_of_string (by decide) (by decide +kernel)
  · rw [show (5497669 * 10 ^ 9 : ℚ) = (5497669000000000 : ℕ) by norm_num]
    exact identifies_int (by decide) (by decide +kernel) (by decide +kernel)

/-- **C45, the known erratum.** The one number listed in ERRATA.GRISU2, 546653e-6: the
`double` nearest to it is printed with sixteen digits although these six identify it;
the `float` nearest to it is printed with the six digits. -/
theorem C45_errata :
    (AboveLeastNormal .double 0x3fe17e2e6ea85447 ∧
      Prints .double 0x3fe17e2e6ea85447 (chars "0.5466529999999999") ∧
      Identifies .double (546653 / 10 ^ 6) 0x3fe17e2e6ea85447) ∧
    (Prints .float 0x3f0bf173 (chars "0.546653") ∧
      Identifies .float (546653 / 10 ^ 6) 0x3f0bf173) := by
  refine ⟨⟨?_, ?_, ?_⟩, ?_, ?_⟩
  · exact ⟨isFinite_of_lt (by decide), by decide⟩
  · exact prints_of_string (by decide) (by decide +kernel)
  · rw [show (546653 / 10 ^ 6 : ℚ) = ((546653 : ℕ) / (1000000 : ℕ) : ℚ) by norm_num]
    exact identifies_ratio (by decide) (by decide) (by decide +kernel) (by decide +kernel)
  · exact prints_of_string (by decide) (by decide +kernel)
  · rw [show (546653 / 10 ^ 6 : ℚ) = ((546653 : ℕ) / (1000000 : ℕ) : ℚ) by norm_num]
    exact identifies_ratio (by decide) (by decide) (by decide +kernel) (by decide +kernel)

/-- **C45, refuted for subnormal numbers.** The least positive `double` is printed
with nine digits, the least positive `float` with five. -/
theorem C45_subnormal :
    Prints .double 1 (chars "7.41098468e-324") ∧ Prints .float 1 (chars "2.1019e-45") :=
  ⟨prints_of_string (by decide) (by decide +kernel),
   prints_of_string (by decide) (by decide +kernel)⟩

/-- **C45, the bound for subnormal numbers.** Subnormal numbers printed with exactly ten
(`float`: five) digits although nine (four) digits lie safely inside the rounding interval:
10 and 5 cannot be replaced by anything less in `C45_shortest`. -/
theorem C45_few_digits :
    (Prints .double 536740972 (chars "2.651852752e-315") ∧
      SafelyInside .double 536740972 ((265185275 : ℕ) * 10 ^ (-323 : ℤ))) ∧
    (Prints .float 16378 (chars "2.2951e-41") ∧
      SafelyInside .float 16378 ((2295 : ℕ) * 10 ^ (-44 : ℤ))) := by
  refine ⟨⟨prints_of_string (by decide) (by decide +kernel), ?_⟩,
    prints_of_string (by decide) (by decide +kernel), ?_⟩
  · constructor <;> decide +kernel
  · constructor <;> decide +kernel

/-- **C47, refuted without the margin.** 8.3e26 identifies a `double` that is
printed as 8.299999999999999e26; 67e14 identifies a `float` that is printed as
6699999900000000. -/
theorem C47_margin_needed :
    (Identifies .double (83 * 10 ^ 25) 0x4585747ab143e353 ∧
      Prints .double 0x4585747ab143e353 (chars "8.299999999999999e26")) ∧
    (Identifies .float (67 * 10 ^ 14) 0x59be6cea ∧
      Prints .float 0x59be6cea (chars "6699999900000000")) := by
  refine ⟨⟨?_, ?_⟩, ?_, ?_⟩
  · rw [show (83 * 10 ^ 25 : ℚ) = (830000000000000000000000000 : ℕ) by norm_num]
    exact identifies_int (by decide) (by decide +kernel) (by decide +kernel)
  · exact prints_of_string (by decide) (by decide +kernel)
  · rw [show (67 * 10 ^ 14 : ℚ) = (6700000000000000 : ℕ) by norm_num]
    exact identifies_int (by decide) (by decide +kernel) (by decide +kernel)
  · exact prints_of_string (by decide) (by decide +kernel)

/-! ## The hypotheses are met -/

/-- 1.5 -/
example : AboveLeastNormal .double 0x3ff8000000000000 :=
  ⟨isFinite_of_lt (by decide), by decide⟩

/-- A subnormal number large enough for C45. -/
example : IsFinite .double (2 ^ 40) ∧ value .double (2 ^ 40) ≠ 0 ∧
    2 ^ (FloatType.double.W / 2) * mag .double 1 ≤ |value .double (2 ^ 40)| ∧
    SafelyInside .double (2 ^ 40) ((543230922487 : ℕ) * 10 ^ (-323 : ℤ)) :=
  ⟨isFinite_of_lt (by decide), by decide +kernel, by decide +kernel,
    by constructor <;> decide +kernel⟩

/-- -12345678 as a `float` is an integer covered by C46. -/
example : IsFinite .float 0xcb3c614e ∧ |value .float 0xcb3c614e| = (12345678 : ℕ) ∧
    12345678 ≤ 2 ^ FloatType.float.p := by
  refine ⟨⟨by decide, by decide⟩, ?_, by decide⟩
  norm_num [value, signBit, mag, expField, fracField, emin, FloatType.W, FloatType.p,
    FloatType.minExp, abs_of_nonneg, abs_of_neg]

/-- 0.3 lies well inside the interval of the `float` nearest to it. -/
example : AboveLeastNormal .float 0x3e99999a ∧ (3 : ℕ) < 10 ^ decimalDigits .float ∧
    SafelyInside .float 0x3e99999a ((3 : ℕ) * 10 ^ (-1 : ℤ)) := by
  refine ⟨⟨isFinite_of_lt (by decide), by decide⟩, by decide, ?_⟩
  norm_num [SafelyInside, midBelow, midAbove, mag, expField, fracField, emin, stepAbove, margin, FloatType.W,
    FloatType.p, FloatType.minExp]

end Floaxie
