import Verif.Proof.Atof

/-!
# Values returned by `atof` for numerals of the documented grammar (C20, C21, C35, C37)
-/

namespace Floaxie

open Spec FloatType

/-- `atof` delegated to the fallback and returned what it gave. -/
def Delegated (T : FloatType) (fb : Fallback) (errno : Nat) (mem : List Nat) (str : Nat) (r : AtofResult) : Prop :=
  r.fellBack = true ∧ r.value = (fb mem str errno).value ∧ r.strEnd = (fb mem str errno).strEnd ∧
  r.errno = (fb mem str errno).errno ∧
  r.status = if r.errno ≠ ERANGE then Status.success else if value T r.value ≠ 0 then .overflow else .underflow

/-- `atof` did not delegate; it consumed exactly `n`, and returned `v` with
status success, leaving `errno` alone. -/
def Converted (errno : Nat) (str : Nat) (n : Numeral) (v : Nat) (r : AtofResult) : Prop :=
  r = ⟨v, .success, str + n.text.length, errno, false⟩

/-- A C string holding exactly a numeral. -/
theorem numeralAt_cstr {n : Numeral} (hv : n.Valid) (h1 : (signText n.sign ++ n.mantText).length ≤ 2049)
    (h2 : ∀ e, n.exp = some e → e.text.length ≤ 2050 ∧ e.Readable) : NumeralAt (n.text ++ [0]) 0 n :=
  ⟨hv, ⟨0, [], by simp, by decide, fun _ => ⟨by decide, by decide, fun h => absurd h (by decide)⟩, fun _ => by decide⟩, h1,
    fun e he => (h2 e he).1, fun e he => (h2 e he).2⟩

theorem delegated_of {T : FloatType} {fb : Fallback} {errno : Nat} {mem : List Nat} {str : Nat} :
    Delegated T fb errno mem str ⟨(fb mem str errno).value, checkErrno T (fb mem str errno).errno (fb mem str errno).value,
        (fb mem str errno).strEnd, (fb mem str errno).errno, true⟩ := by
  refine ⟨rfl, rfl, rfl, rfl, ?_⟩
  dsimp only
  unfold checkErrno
  by_cases h : (fb mem str errno).errno = ERANGE
  · simp only [h, ne_eq, not_true_eq_false, if_false]
    have := isZero_iff (T := T) (b := (fb mem str errno).value)
    by_cases hz : value T (fb mem str errno).value = 0
    · rw [this.mpr hz]; simp [hz]
    · have hz' : isZero T (fb mem str errno).value = false := by
        rw [Bool.eq_false_iff]; exact fun h => hz (this.mp h)
      rw [hz']; simp [hz]
  · simp [h]

/-- `atof` after an outcome of `krosh` on a numeral. -/
theorem atof_numeral {T : FloatType} {fb : Fallback} {errno : Nat} {mem : List Nat} {str : Nat} {n : Numeral}
    {v : Nat} {acc : Bool} (h : NumeralAt mem str n)
    (hk : krosh T mem str = .ok { value := v, strEnd := str + n.text.length, status := .success, isAccurate := acc }) :
    ∃ r, atof T fb errno mem str = .ok r ∧ (acc = true → Converted errno str n v r) ∧
      (acc = false → Delegated T fb errno mem str r) := by
  have hs : str + n.text.length ≠ str := by have := text_pos h.valid; omega
  refine ⟨_, atof_of_krosh (fb := fb) (errno := errno) hk hs, ?_, ?_⟩
  · rintro rfl; rfl
  · rintro rfl; exact delegated_of

/-! ## C20 -/

/-- **C20.** A numeral with at most 19 (double) / 9 (float) significant
digits in the finite range (for float, written with a last significant digit not
below 10^-50): `atof` either delegates to the fallback, or returns the correctly
rounded value with status success and the end pointer after the numeral -
except that the carry may be lost when a number just below a power of two is
rounded up to it (see C21). -/
theorem C20_short_correctly_rounded (T : FloatType) (fb : Fallback) (errno : Nat) (mem : List Nat) (str : Nat)
    (n : Numeral) (h : NumeralAt mem str n) (m : Nat) (k : Int) (hm : m < 10 ^ T.digits10)
    (hmk : n.absValue = m * 10 ^ k) (hk : T = .float → -50 ≤ k)
    (hx1 : 2 ^ emin T ≤ n.absValue) (hx2 : n.absValue < overflowThreshold T) :
    ∃ r, atof T fb errno mem str = .ok r ∧
      (Delegated T fb errno mem str r ∨
       ∃ b v, RoundsTo T n.value b ∧ Converted errno str n v r ∧ (v = b ∨ CarryLost T n.value b v)) := by
  obtain ⟨v, acc, h1, h2, -, -⟩ := krosh_short h hm hmk hk hx1 hx2
  obtain ⟨r, r1, r2, r3⟩ := atof_numeral (fb := fb) (errno := errno) h h1
  refine ⟨r, r1, ?_⟩
  cases acc with
  | false => exact Or.inl (r3 rfl)
  | true =>
    obtain ⟨b, b1, b2, b3⟩ := h2 rfl
    refine Or.inr ⟨b, v, identifies_roundsTo b2 b1, r2 rfl, ?_⟩
    rcases b3 with b3 | b3
    · exact Or.inl b3.1
    · exact Or.inr b3

/-- `x` is below a power of two (at least the smallest normal number) but rounds to it. -/
def RoundsUpToPow2 (T : FloatType) (x : ℚ) : Prop :=
  ∃ b j, RoundsTo T x b ∧ T.minExp - 1 ≤ j ∧ |value T b| = 2 ^ j ∧ |x| < 2 ^ j

/-- If `atof` asks the fallback, the fallback reads the numeral `n` at `str`
correctly (round to nearest even) and without raising `ERANGE`. -/
def FallbackReads (T : FloatType) (fb : Fallback) (errno : Nat) (mem : List Nat) (str : Nat) (n : Numeral) : Prop :=
  ∀ r, atof T fb errno mem str = .ok r → r.fellBack = true →
    RoundsTo T n.value (fb mem str errno).value ∧ (fb mem str errno).strEnd = str + n.text.length ∧
      (fb mem str errno).errno ≠ ERANGE

/-- **C20, away from powers of two.** If moreover the number does not round up
to a power of two, and the fallback, if it is asked, rounds correctly, so does `atof`. -/
theorem C20_correctly_rounded_given_fallback (T : FloatType) (fb : Fallback) (errno : Nat) (mem : List Nat) (str : Nat)
    (n : Numeral) (h : NumeralAt mem str n) (m : Nat) (k : Int) (hm : m < 10 ^ T.digits10)
    (hmk : n.absValue = m * 10 ^ k) (hk : T = .float → -50 ≤ k)
    (hx1 : 2 ^ emin T ≤ n.absValue) (hx2 : n.absValue < overflowThreshold T)
    (hfb : FallbackReads T fb errno mem str n)
    (hp : ¬ RoundsUpToPow2 T n.value) :
    ∃ r, atof T fb errno mem str = .ok r ∧ RoundsTo T n.value r.value ∧ r.status = .success ∧
      r.strEnd = str + n.text.length := by
  obtain ⟨r, r1, r2⟩ := C20_short_correctly_rounded T fb errno mem str n h m k hm hmk hk hx1 hx2
  refine ⟨r, r1, ?_⟩
  rcases r2 with ⟨d0, d1, d2, d3, d4⟩ | ⟨b, v, b1, rfl, b3⟩
  · replace hfb := hfb r r1 d0
    rw [d3, if_pos hfb.2.2] at d4
    rw [d1, d2]
    exact ⟨hfb.1, d4, hfb.2.1⟩
  · rcases b3 with rfl | ⟨-, -, j, j1, j2, j3, -⟩
    · exact ⟨b1, rfl, rfl⟩
    · exact absurd ⟨b, j, b1, j1, j2, j3⟩ hp

/-- The hypotheses of C20 are met by "-0.1", for both types; no fallback is used. -/
def minusTenth : Numeral := ⟨some true, [0], some [1], none⟩

theorem minusTenth_at : NumeralAt (minusTenth.text ++ [0]) 0 minusTenth :=
  numeralAt_cstr ⟨by decide, by intro e he; cases he⟩ (by decide) (by intro e he; cases he)

theorem minusTenth_abs : minusTenth.absValue = (1 : Nat) * 10 ^ (-1 : Int) := by
  norm_num [minusTenth, Numeral.absValue, Numeral.fracDigits, Numeral.expValue, digitsVal]

example (fb : Fallback) : ∃ r, atof .float fb 0 (minusTenth.text ++ [0]) 0 = .ok r ∧
    (Delegated .float fb 0 (minusTenth.text ++ [0]) 0 r ∨
       ∃ b v, RoundsTo .float minusTenth.value b ∧ Converted 0 0 minusTenth v r ∧ (v = b ∨ CarryLost .float minusTenth.value b v)) :=
  C20_short_correctly_rounded .float fb 0 _ 0 minusTenth minusTenth_at 1 (-1) (by decide) minusTenth_abs
    (by decide) (by rw [minusTenth_abs]; norm_num [emin, FloatType.minExp, FloatType.p])
    (by rw [minusTenth_abs]; norm_num [overflowThreshold, FloatType.maxExp, FloatType.p])

/-- "-0.1" as double: bit pattern of -0.1, six... all four characters consumed. -/
example (fb : Fallback) : atof .double fb 7 (minusTenth.text ++ [0]) 0 =
    .ok ⟨0xBFB999999999999A, .success, 4, 7, false⟩ := by
  have : krosh .double (minusTenth.text ++ [0]) 0 = .ok ⟨0xBFB999999999999A, 4, .success, true⟩ := by decide +kernel
  unfold atof; rw [this]; rfl

/-! ## C21 -/

/-- **C21: the carry is lost.** Every integer `m` (not ending in 0, of at most
19 / 9 digits) within less than half a unit below a power of two `2^j` should be
read as `2^j`; `atof` returns `2^(j-1)`, status success, without consulting the
fallback. -/
theorem C21_carry_lost (T : FloatType) (fb : Fallback) (errno : Nat) (mem : List Nat) (str : Nat)
    (n : Numeral) (h : NumeralAt mem str n) (m : Nat) (hm : m < 10 ^ T.digits10)
    (hmk : n.absValue = m) (h10 : ¬ 10 ∣ m) (j : Nat)
    (hx1 : (2 : ℚ) ^ j < m + 2 ^ ((j : Int) - T.p - 1)) (hx2 : m < 2 ^ j) :
    ∃ b v, RoundsTo T n.value b ∧ |value T b| = 2 ^ j ∧
      atof T fb errno mem str = .ok ⟨v, .success, str + n.text.length, errno, false⟩ ∧
      |value T v| = 2 ^ j / 2 ∧ signBit T v = signBit T b := by
  have hm0 : 1 ≤ m := by
    rcases Nat.eq_zero_or_pos m with h0 | h0
    · exact absurd (h0 ▸ dvd_zero 10) h10
    · exact h0
  have hjm : (j : Int) < T.maxExp := by
    have h3 : (2 : ℚ) ^ ((j : Int) - T.p - 1) ≤ 2 ^ j / 2 := by
      rw [show (2 : ℚ) ^ j / 2 = 2 ^ ((j : Int) - 1) by rw [zpow_sub_one₀ (by norm_num), zpow_natCast]; ring]
      exact zpow_le_zpow_right₀ (by norm_num) (by omega)
    have h4 : (2 : ℚ) ^ j < 2 * m := by linarith
    have h5 : 2 ^ j < 2 * m := by exact_mod_cast h4
    have h6 : 2 * 10 ^ T.digits10 < 2 ^ 65 := by cases T <;> decide
    have h7 : j < 65 := (Nat.pow_lt_pow_iff_right (by norm_num)).mp (show 2 ^ j < 2 ^ 65 by omega)
    have : (65 : Int) ≤ T.maxExp := by cases T <;> decide
    omega
  have hmin : T.minExp ≤ j := by
    have : T.minExp ≤ 0 := by cases T <;> decide
    omega
  obtain ⟨a, a1, a2, a3, a4, a5⟩ := identifies_pow2 (T := T) (j := j) (x := m) hmin hjm
    (by rw [zpow_natCast]; exact hx1) (by rw [zpow_natCast]; exact_mod_cast hx2)
  rw [zpow_natCast] at a4
  rw [← hmk] at a5
  have hx0 : (1 : ℚ) ≤ n.absValue := by rw [hmk]; exact_mod_cast hm0
  have hlt : n.absValue < overflowThreshold T := by
    have := a5.2.1
    rwa [abs_of_nonneg (absValue_nonneg n)] at this
  obtain ⟨v, acc, k1, k2, k3, -⟩ := krosh_short (T := T) (k := 0) h hm (by rw [hmk]; simp) (fun _ => by norm_num)
    (le_trans (zpow_le_one_of_nonpos₀ (by norm_num) (by cases T <;> decide)) hx0) hlt
  cases acc with
  | false =>
    obtain ⟨c, c1, -, c3⟩ := k3 rfl
    exact (not_identifies_mid c1 (c3 rfl h10) hlt a5).elim
  | true =>
    obtain ⟨b, b1, b2, b3⟩ := k2 rfl
    have hvb : |value T b| = 2 ^ j := by
      have hva : |value T a| = 2 ^ j := by rw [value_abs_of_lt a1, a4]
      unfold Numeral.value at b2
      cases hn : n.isNeg
      · rw [hn] at b2
        rw [identifies_value_unique b2 a5, hva]
      · rw [hn] at b2
        rw [identifies_value_unique b2 (identifies_neg a5), value_neg (lt_posInf_lt a1), abs_neg, hva]
    have hab : absPat T b = a := by
      rw [value_abs, ← a4] at hvb
      apply N_inj (T := T)
      exact_mod_cast mul_right_cancel₀ (emin_pos T).ne' hvb
    refine ⟨b, v, identifies_roundsTo b2 b1, hvb, ?_, ?_⟩
    · rw [atof_of_krosh k1 (by have := text_pos h.valid; dsimp only; omega)]; rfl
    · rcases b3 with ⟨-, b3⟩ | ⟨-, b4, i, i1, i2, i3, i4⟩
      · have := b3 rfl h10 (by rw [hab]; exact a3)
        rw [hvb, hmk] at this
        have h3 : (m : ℚ) < 2 ^ j := by exact_mod_cast hx2
        linarith
      · refine ⟨?_, b4⟩
        rw [hvb, ← zpow_natCast] at i2
        have hij : (j : Int) = i := zpow_right_injective₀ (by norm_num) (by norm_num) i2
        have : T.minExp ≤ -1 := by cases T <;> decide
        rw [i4, if_neg (by omega), ← hij, zpow_sub_one₀ (by norm_num), zpow_natCast]; ring

/-- The decimal numeral of `2^63 - 1`. -/
def maxInt64 : Numeral := ⟨none, [9,2,2,3,3,7,2,0,3,6,8,5,4,7,7,5,8,0,7], none, none⟩

theorem maxInt64_at : NumeralAt (maxInt64.text ++ [0]) 0 maxInt64 :=
  numeralAt_cstr ⟨by decide, by intro e he; cases he⟩ (by decide) (by intro e he; cases he)

theorem maxInt64_abs : maxInt64.absValue = (2 ^ 63 - 1 : Nat) := by
  norm_num [maxInt64, Numeral.absValue, Numeral.fracDigits, Numeral.expValue, digitsVal]

/-- The hypotheses of C21 are met by "9223372036854775807". -/
example (fb : Fallback) : ∃ b v, RoundsTo .double maxInt64.value b ∧ |value .double b| = 2 ^ 63 ∧
      atof .double fb 0 (maxInt64.text ++ [0]) 0 = .ok ⟨v, .success, 0 + maxInt64.text.length, 0, false⟩ ∧
      |value .double v| = 2 ^ 63 / 2 ∧ signBit .double v = signBit .double b :=
  C21_carry_lost .double fb 0 _ 0 maxInt64 maxInt64_at (2 ^ 63 - 1) (by decide) maxInt64_abs (by decide) 63
    (by norm_num [FloatType.p]) (by norm_num)

/-- Hence `atof` is not correctly rounded on short numerals: the full C20/C21
fails for "9223372036854775807", which is read as `2^62`. -/
theorem C21_refuted (fb : Fallback) : ∃ r, atof .double fb 0 (maxInt64.text ++ [0]) 0 = .ok r ∧
    r.fellBack = false ∧ r.status = .success ∧ value .double r.value = 2 ^ 62 ∧ ¬ RoundsTo .double maxInt64.value r.value := by
  obtain ⟨b, v, h1, h2, h3, h4, h5⟩ := C21_carry_lost .double fb 0 _ 0 maxInt64 maxInt64_at (2 ^ 63 - 1) (by decide)
    maxInt64_abs (by decide) 63 (by norm_num [FloatType.p]) (by norm_num)
  have hpos : ¬ maxInt64.value < 0 := by
    have : maxInt64.value = maxInt64.absValue := rfl
    rw [this]; exact not_lt.mpr (absValue_nonneg _)
  have hvv : value .double v = 2 ^ 62 := by
    have hs : signBit .double v ≠ 1 := by rw [h5, Ne, h1.2.2.1]; exact hpos
    have : 0 ≤ value .double v := by
      unfold value
      rw [if_neg hs, mag_eq]
      have := emin_pos .double
      positivity
    rw [abs_of_nonneg this] at h4
    rw [h4]; norm_num
  refine ⟨_, h3, rfl, rfl, hvv, fun hr => ?_⟩
  have hid : ∃ c, Identifies .double maxInt64.value c ∧ |value .double c| = 2 ^ 63 := by
    obtain ⟨a, a1, a2, a3, a4, a5⟩ := identifies_pow2 (T := .double) (j := 63) (x := maxInt64.value) (by decide) (by decide)
      (by rw [show maxInt64.value = maxInt64.absValue from rfl, maxInt64_abs]; norm_num [FloatType.p])
      (by rw [show maxInt64.value = maxInt64.absValue from rfl, maxInt64_abs]; norm_num)
    exact ⟨a, a5, by rw [value_abs_of_lt a1, a4]; norm_num⟩
  obtain ⟨c, c1, c2⟩ := hid
  have := identifies_roundsTo_value c1 hr
  rw [← this] at c2
  have e : (⟨v, Status.success, 0 + maxInt64.text.length, 0, false⟩ : AtofResult).value = v := rfl
  rw [e, hvv] at c2
  norm_num at c2

/-! ## C35 -/

/-- **C35.** A short numeral whose exact value is a finite non-zero datum is
converted to exactly that datum, status success, without consulting the fallback. -/
theorem C35_representable_exact (T : FloatType) (fb : Fallback) (errno : Nat) (mem : List Nat) (str : Nat)
    (n : Numeral) (h : NumeralAt mem str n) (m : Nat) (k : Int) (hm : m < 10 ^ T.digits10)
    (hmk : n.absValue = m * 10 ^ k) (hk : T = .float → -50 ≤ k)
    (b : Nat) (hb : IsFinite T b) (h0 : value T b ≠ 0) (hv : n.value = value T b) :
    atof T fb errno mem str = .ok ⟨b, .success, str + n.text.length, errno, false⟩ := by
  rw [atof_of_krosh (krosh_repr h hm hmk hk hb hv.symm h0) (by have := text_pos h.valid; dsimp only; omega)]
  rfl

/-- Every integer up to `2^p` is representable. -/
theorem exists_integer (T : FloatType) (m : Nat) (h : m ≤ 2 ^ T.p) :
    ∃ a, a < posInf T ∧ value T a = m := by
  obtain ⟨q, i, hq, hi, hqm⟩ : ∃ q i, q < 2 ^ T.p ∧ i ≤ 1 ∧ m = q * 2 ^ i := by
    rcases h.lt_or_eq with h | h
    · exact ⟨m, 0, h, by norm_num, by simp⟩
    · exact ⟨2 ^ (T.p - 1), 1, by cases T <;> decide, le_rfl, by rw [h]; cases T <;> decide⟩
  obtain ⟨t, ht⟩ : ∃ t : Nat, (t : Int) = i - emin T := ⟨(i - emin T).toNat, by
    have : emin T ≤ 0 := by cases T <;> decide
    omega⟩
  obtain ⟨a, ha⟩ := exists_N (T := T) (t := t) hq
  have hval : (N T a : ℚ) * 2 ^ emin T = m := by
    rw [ha, hqm]
    push_cast
    rw [mul_assoc, ← zpow_natCast (2 : ℚ) t, ← zpow_add₀ (by norm_num), ht]
    rw [← zpow_natCast (2 : ℚ) i]; congr 2; ring
  have hlt : a < posInf T := by
    apply lt_posInf_of_N
    rw [hval]
    have h1 : (m : ℚ) ≤ 2 ^ T.p := by exact_mod_cast h
    have h2 : (2 : ℚ) ^ T.p < overflowThreshold T := by
      cases T with
      | float => norm_num [overflowThreshold, FloatType.maxExp, FloatType.p]
      | double =>
        unfold overflowThreshold
        have e1 : (2 : ℚ) ^ FloatType.double.maxExp = 2 ^ (FloatType.double.maxExp - FloatType.double.p - 1) * 2 ^ (54 : ℕ) := by
          rw [← zpow_natCast (2 : ℚ) 54, ← zpow_add₀ (by norm_num)]; rfl
        have e2 : (2 : ℚ) ^ FloatType.double.p ≤ 2 ^ (FloatType.double.maxExp - FloatType.double.p - 1) := by
          rw [← zpow_natCast]
          exact zpow_le_zpow_right₀ (by norm_num) (by decide)
        rw [e1]
        norm_num at e2 ⊢
        linarith [show (0 : ℚ) < 2 ^ (FloatType.double.maxExp - FloatType.double.p - 1) by positivity]
    linarith
  exact ⟨a, hlt, by rw [value_of_lt hlt, hval]⟩

/-- **C35, integers.** Every integer of magnitude at most `2^53` (double) /
`2^24` (float), however spelled, is read as exactly that integer. -/
theorem C35_integers (T : FloatType) (fb : Fallback) (errno : Nat) (mem : List Nat) (str : Nat)
    (n : Numeral) (h : NumeralAt mem str n) (m : Nat) (hm0 : 0 < m) (hm : m ≤ 2 ^ T.p) (hmk : n.absValue = m) :
    ∃ b, IsFinite T b ∧ value T b = n.value ∧
      atof T fb errno mem str = .ok ⟨b, .success, str + n.text.length, errno, false⟩ := by
  obtain ⟨a, a1, a2⟩ := exists_integer T m hm
  have hlt : m < 10 ^ T.digits10 := lt_of_le_of_lt hm (by cases T <;> decide)
  have hm' : (m : ℚ) ≠ 0 := by exact_mod_cast hm0.ne'
  have key : ∃ b, IsFinite T b ∧ value T b = n.value ∧ value T b ≠ 0 := by
    unfold Numeral.value
    cases n.isNeg
    · exact ⟨a, isFinite_of_lt a1, by rw [a2, hmk]; simp, by rw [a2]; exact hm'⟩
    · refine ⟨neg T a, isFinite_neg (isFinite_of_lt a1), ?_, ?_⟩ <;> rw [value_neg (lt_posInf_lt a1), a2]
      · rw [hmk]; simp
      · exact neg_ne_zero.mpr hm'
  obtain ⟨b, b1, b2, b3⟩ := key
  exact ⟨b, b1, b2, C35_representable_exact T fb errno mem str n h m 0 hlt (by rw [hmk]; simp) (fun _ => by norm_num) b b1 b3 b2.symm⟩

/-- "+00012.50e1" is read as the integer 125. -/
def oneTwentyFive : Numeral := ⟨some false, [0,0,0,1,2], some [5,0], some ⟨false, none, [1]⟩⟩

theorem oneTwentyFive_at : NumeralAt (oneTwentyFive.text ++ [0]) 0 oneTwentyFive :=
  numeralAt_cstr ⟨by decide, by intro e he; cases he; decide⟩ (by decide)
    (by intro e he; cases he; exact ⟨by decide, readable_of_lt (by decide)⟩)

theorem oneTwentyFive_abs : oneTwentyFive.absValue = (125 : Nat) := by
  norm_num [oneTwentyFive, Numeral.absValue, Numeral.fracDigits, Numeral.expValue, ExpPart.value, digitsVal]
  rw [if_neg (by decide)]; norm_num

/-- The hypotheses of `C35_representable_exact` are met: 125, as float. -/
example (fb : Fallback) : atof .float fb 5 (oneTwentyFive.text ++ [0]) 0 =
    .ok ⟨0x42FA0000, .success, 0 + oneTwentyFive.text.length, 5, false⟩ :=
  C35_representable_exact .float fb 5 _ 0 oneTwentyFive oneTwentyFive_at 125 0 (by decide)
    (by rw [oneTwentyFive_abs]; norm_num) (by decide) _ ⟨by decide, by decide⟩ (by decide +kernel) (by decide +kernel)

example (fb : Fallback) : ∃ b, IsFinite .float b ∧ value .float b = oneTwentyFive.value ∧
      atof .float fb 5 (oneTwentyFive.text ++ [0]) 0 = .ok ⟨b, .success, 0 + oneTwentyFive.text.length, 5, false⟩ :=
  C35_integers .float fb 5 _ 0 oneTwentyFive oneTwentyFive_at 125 (by norm_num) (by decide) oneTwentyFive_abs

/-! ## C37 -/

/-- **C37.** On short numerals in the finite range: if the number is exactly half
way between two adjacent finite values (or is the overflow limit) `atof`
delegates to the fallback, with the very string and `errno` it was given; and it
delegates only if the number is within `5/2^W` (relatively) of such a number. -/
theorem C37_fallback_on_ties (T : FloatType) (fb : Fallback) (errno : Nat) (mem : List Nat) (str : Nat)
    (n : Numeral) (h : NumeralAt mem str n) (m : Nat) (k : Int) (hm : m < 10 ^ T.digits10)
    (hmk : n.absValue = m * 10 ^ k) (hk : T = .float → -50 ≤ k)
    (hx1 : 2 ^ emin T ≤ n.absValue) (hx2 : n.absValue < overflowThreshold T) :
    ∃ r, atof T fb errno mem str = .ok r ∧
      (IsTie T n.absValue → Delegated T fb errno mem str r) ∧
      (r.fellBack = true → Delegated T fb errno mem str r ∧
        ∃ x, IsTieOrLimit T x ∧ |n.absValue - x| < n.absValue * (5 / 2 ^ T.W)) := by
  obtain ⟨v, acc, h1, -, h3, h4⟩ := krosh_short h hm hmk hk hx1 hx2
  obtain ⟨r, r1, r2, r3⟩ := atof_numeral (fb := fb) (errno := errno) h h1
  refine ⟨r, r1, ?_, ?_⟩
  · intro ht
    exact r3 (h4 (tie_mid (absValue_nonneg n) (Or.inl ht)))
  · intro hf
    have hacc : acc = false := by
      cases acc with
      | false => rfl
      | true => rw [r2 rfl] at hf; simp at hf
    obtain ⟨a, a1, a2, -⟩ := h3 hacc
    exact ⟨r3 hacc, _, mid_tie a1, a2⟩

/-- `2^53 + 1`, the classical tie. -/
def tie53 : Numeral := ⟨none, [9,0,0,7,1,9,9,2,5,4,7,4,0,9,9,3], none, none⟩

/-- The fallback is called for "9007199254740993" and its answer returned; with
a stale `ERANGE` in `errno` that `strtod` does not touch, the status is overflow. -/
example (fb : Fallback) (hfb : ∀ mem str errno, fb mem str errno = ⟨0x4340000000000000, 16, errno⟩) :
    atof .double fb 0 (tie53.text ++ [0]) 0 = .ok ⟨0x4340000000000000, .success, 16, 0, true⟩ := by
  have : krosh .double (tie53.text ++ [0]) 0 = .ok ⟨0x4340000000000000, 16, .success, false⟩ := by decide +kernel
  rw [atof_of_krosh this (by decide)]
  simp only [hfb]
  rfl

theorem tie53_at : NumeralAt (tie53.text ++ [0]) 0 tie53 :=
  numeralAt_cstr ⟨by decide, by intro e he; cases he⟩ (by decide) (by intro e he; cases he)

/-- The hypotheses of C37 are met by it. -/
example (fb : Fallback) := C37_fallback_on_ties .double fb 0 _ 0 tie53 tie53_at (2 ^ 53 + 1) 0 (by decide)
  (by decide +kernel) (by decide) (by decide +kernel) (by decide +kernel)

end Floaxie
