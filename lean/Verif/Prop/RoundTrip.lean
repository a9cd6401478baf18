import Verif.Prop.Ftoa
import Verif.Prop.Atof
import Verif.Proof.Pow2

/-!
# Printing, then parsing (C22)
-/

namespace Floaxie

open Spec FloatType

theorem expDigits_val {n : Nat} (hn : n < 1000) : digitsVal (expDigits n) = n := by
  unfold expDigits
  split_ifs with h
  · simp [digitsVal]; omega
  · simp [digitsVal]; omega

/-- The printed text of a finite non-zero value is a numeral for `atof`. -/
theorem fmt_at (neg : Bool) {ds : List (Fin 10)} {k : Int} (hne : ds ≠ []) (hl : ds.length ≤ 17)
    (hk : k.natAbs ≤ 343) (pre rest : List Nat) :
    NumeralAt (pre ++ ((fmtNumeral neg ds k).text ++ 0 :: rest)) pre.length (fmtNumeral neg ds k) := by
  have h0 : 0 < ds.length := List.length_pos_iff.mpr hne
  have hlen : (fmtNumeral neg ds k).text.length ≤ 30 := by
    have := (fmtBody_len ds k hne).2
    rw [fmt_text, List.length_append]
    have : (if neg = true then ['-'.toNat] else []).length ≤ 1 := by split_ifs <;> simp
    omega
  refine ⟨fmt_valid neg ds k hne, ⟨0, rest, by simp, by decide,
    fun _ => ⟨by decide, by decide, fun h => absurd h (by decide)⟩, fun _ => by decide⟩, ?_, ?_, ?_⟩
  · have : (signText (fmtNumeral neg ds k).sign ++ (fmtNumeral neg ds k).mantText).length ≤
        (fmtNumeral neg ds k).text.length := by
      simp [Numeral.text]
    omega
  · intro e he
    have : e.text.length ≤ (fmtNumeral neg ds k).text.length := by
      have : (fmtNumeral neg ds k).expText = e.text := by simp [Numeral.expText, he]
      rw [← this]; simp [Numeral.text]; omega
    omega
  · intro e he
    apply readable_of_lt
    have hn : ((ds.length : Int) + k - 1).natAbs < 1000 := by omega
    have hd : e.digits = expDigits ((ds.length : Int) + k - 1).natAbs := by
      unfold fmtNumeral at he
      dsimp only at he
      split_ifs at he <;> simp at he <;> rw [← he]
    rw [hd, expDigits_val hn]; omega

/-- The text `ftoa` prints for the smallest positive value of each type:
`2.1019e-45` and `7.41098468e-324` (the latter is also in
`tests/atof_test.cpp:43`). -/
def minText : FloatType → Numeral
  | .float => ⟨none, [2], some [1,0,1,9], some ⟨false, some true, [4,5]⟩⟩
  | .double => ⟨none, [7], some [4,1,0,9,8,4,6,8], some ⟨false, some true, [3,2,4]⟩⟩

theorem minText_prints (T : FloatType) : Prints T 1 (minText T).text := by
  obtain ⟨s, h1, h2, -⟩ := C11_to_string T 1 (by cases T <;> decide)
  have h3 : toBasicString T 1 = .ok (minText T).text := by cases T <;> decide +kernel
  rw [h3, Except.ok.injEq] at h1
  rw [h1]; exact h2

theorem minText_abs (T : FloatType) : (2 : ℚ) ^ emin T ≤ (minText T).absValue := by
  cases T with
  | float =>
    have e : (minText .float).absValue = 21019 / 10 ^ 49 := by
      unfold Numeral.absValue
      rw [show (minText .float).expValue - ((minText .float).fracDigits.length : Int) = -((49 : ℕ) : Int) by decide,
        zpow_neg, zpow_natCast, show digitsVal ((minText .float).int ++ (minText .float).fracDigits) = 21019 by decide]
      push_cast; rw [div_eq_mul_inv]
    rw [e, show emin FloatType.float = -((149 : ℕ) : Int) by decide, zpow_neg, zpow_natCast, inv_eq_one_div,
      div_le_div_iff₀ (by positivity) (by positivity)]
    exact_mod_cast (by decide +kernel : 1 * 10 ^ 49 ≤ 21019 * 2 ^ 149)
  | double =>
    have e : (minText .double).absValue = 741098468 / 10 ^ 332 := by
      unfold Numeral.absValue
      rw [show (minText .double).expValue - ((minText .double).fracDigits.length : Int) = -((332 : ℕ) : Int) by decide,
        zpow_neg, zpow_natCast, show digitsVal ((minText .double).int ++ (minText .double).fracDigits) = 741098468 by decide]
      push_cast; rw [div_eq_mul_inv]
    rw [e, show emin FloatType.double = -((1074 : ℕ) : Int) by decide, zpow_neg, zpow_natCast, inv_eq_one_div,
      div_le_div_iff₀ (by positivity) (by positivity)]
    exact_mod_cast (by decide +kernel : 1 * 10 ^ 332 ≤ 741098468 * 2 ^ 1074)

/-- Towards C22: `atof` of the text `ftoa` prints for a finite non-zero value
returns that value, status success and the end pointer at the terminator,
provided the fallback reads correctly if it is asked - except that the carry may
be lost if the value is a power of two and the printed decimal is below it. -/
theorem round_trip_or_carry (T : FloatType) (bits : Nat) (hf : IsFinite T bits) (h0 : value T bits ≠ 0)
    (n : Numeral) (hs : Prints T bits n.text)
    (fb : Fallback) (errno : Nat) (pre rest : List Nat)
    (hfb : FallbackReads T fb errno (pre ++ (n.text ++ 0 :: rest)) pre.length n) :
    ∃ r, atof T fb errno (pre ++ (n.text ++ 0 :: rest)) pre.length = .ok r ∧
      r.strEnd = pre.length + n.text.length ∧ r.status = .success ∧
      (r.value = bits ∨ CarryLost T n.value bits r.value) := by
  obtain ⟨ds, k, h1, ⟨hne, -⟩, h3, h4, h4', h5⟩ :=
    ftoa_main' T (absPat T bits) (absPat_lt_posInf hf) (abs_ne_zero_of_value h0)
  have hn : n = fmtNumeral (decide (signBit T bits = 1)) ds k :=
    numeral_text_inj _ _ (prints_unique hs (h5 bits hf.1 rfl))
  have hl17 : ds.length ≤ 17 := by cases T <;> simp [maxSigDigits] at h1 <;> omega
  have hat : NumeralAt (pre ++ (n.text ++ 0 :: rest)) pre.length n := by
    rw [hn]; exact fmt_at _ hne hl17 h4 pre rest
  have habs : n.absValue = digitsVal ds * 10 ^ k := by
    rw [hn]; exact fmt_absValue _ _ _ hne (fmtK h1 hne h4)
  have hnv : Identifies T n.value bits := by
    rw [hn, fmt_value _ _ _ hne (fmtK h1 hne h4)]
    exact identifies_signed hf h3
  have hm : digitsVal ds < 10 ^ T.digits10 := by
    refine lt_of_lt_of_le (digitsVal_lt ds) (Nat.pow_le_pow_right (by norm_num) ?_)
    cases T <;> simp [maxSigDigits, digits10] at * <;> omega
  have hhi : n.absValue < overflowThreshold T := by
    have := hnv.2.1
    rwa [abs_value_num] at this
  have hlo : 2 ^ emin T ≤ n.absValue := by
    have h1p : 1 < posInf T := by cases T <;> decide
    have hv1 : value T 1 = 2 ^ emin T := by
      rw [value_of_lt h1p]
      have : N T 1 = 1 := by cases T <;> decide
      rw [this]; simp
    by_cases ha1 : absPat T bits = 1
    · have hp := h5 1 (by cases T <;> decide) (by rw [ha1]; cases T <;> decide)
      have := numeral_text_inj _ _ (prints_unique (minText_prints T) hp)
      rw [habs, ← fmt_absValue (decide (signBit T 1 = 1)) ds k hne (fmtK h1 hne h4), ← this]
      exact minText_abs T
    · have hid1 : Identifies T (2 ^ emin T) 1 := by
        rw [← hv1]; exact identifies_self (isFinite_of_lt h1p) (value_lt_threshold (isFinite_of_lt h1p))
      have hlt : value T 1 < value T (absPat T bits) := by
        rw [value_of_lt h1p, value_of_lt (absPat_lt_posInf hf)]
        apply mul_lt_mul_of_pos_right _ (emin_pos T)
        have := abs_ne_zero_of_value h0
        exact_mod_cast N_lt (T := T) (show 1 < absPat T bits by omega)
      rw [habs]
      exact (identifies_lt hid1 h3 hlt).le
  obtain ⟨r, r1, r2⟩ := C20_short_correctly_rounded T fb errno _ _ n hat (digitsVal ds) k hm habs
    (fun hT => by subst hT; exact h4') hlo hhi
  refine ⟨r, r1, ?_⟩
  rcases r2 with ⟨d0, d1, d2, d3, d4⟩ | ⟨b, v, b1, rfl, b3⟩
  · replace hfb := hfb r r1 d0
    rw [d3, if_pos hfb.2.2] at d4
    refine ⟨by rw [d2, hfb.2.1], d4, Or.inl ?_⟩
    rw [d1]
    exact identifies_roundsTo_unique hnv h0 hfb.1
  · have := identifies_roundsTo_unique hnv h0 b1
    subst this
    exact ⟨rfl, rfl, b3⟩

/-- **C22 for everything but powers of two.** -/
theorem C22_round_trip_not_pow2 (T : FloatType) (bits : Nat) (hf : IsFinite T bits) (h0 : value T bits ≠ 0)
    (hp : ∀ j : Int, |value T bits| ≠ 2 ^ j) (n : Numeral) (hs : Prints T bits n.text)
    (fb : Fallback) (errno : Nat) (pre rest : List Nat)
    (hfb : FallbackReads T fb errno (pre ++ (n.text ++ 0 :: rest)) pre.length n) :
    ∃ r, atof T fb errno (pre ++ (n.text ++ 0 :: rest)) pre.length = .ok r ∧
      r.strEnd = pre.length + n.text.length ∧ r.status = .success ∧ r.value = bits := by
  obtain ⟨r, r1, r2, r3, r4⟩ := round_trip_or_carry T bits hf h0 n hs fb errno pre rest hfb
  refine ⟨r, r1, r2, r3, ?_⟩
  rcases r4 with r4 | ⟨-, -, j, -, j2, -⟩
  · exact r4
  · exact absurd j2 (hp j)

/-! ## Powers of two -/

theorem charsVal_digits (ds : List (Fin 10)) : charsVal (ds.map digitChar) = digitsVal ds := by
  unfold charsVal digitsVal
  rw [List.foldl_map]
  congr 1
  funext a d
  unfold digitChar
  have : '0'.toNat = 48 := by decide
  omega

/-- `krosh` on a numeral given by its significant digits. -/
theorem krosh_digits {T : FloatType} {mem : List Nat} {str : Nat} {n : Numeral} (h : NumeralAt mem str n)
    {m : Nat} {k : Int} (hm : m < 10 ^ T.digits10) (h10 : ¬ 10 ∣ m) (hmk : n.absValue = m * 10 ^ k) :
    ∃ w, DiyFp.normalize T.W { f := m, e := 0 } = .ok w ∧
      krosh T mem str = kroshTail T w k (!n.isNeg) (str + n.text.length) := by
  obtain ⟨c, R, hmem, he, hd⟩ := h.scan
  obtain ⟨P, K, frac, w, h1, -, h2, h3, h4⟩ := parseMantissa_num (T := T) hmem he h.mantLen
  have hm0 : m ≠ 0 := fun hz => h10 (by rw [hz]; exact dvd_zero _)
  have hmv : mantVal n = m * 10 ^ (k - n.expValue) := by
    rw [absValue_eq] at hmk
    rw [zpow_sub₀ (by norm_num), ← mul_div_assoc, ← hmk]
    field_simp
  have hP : P ≠ 0 := by
    intro hz
    have := h1.zero_iff.mp hz
    rw [hmv] at this
    have h10 : (0 : ℚ) < 10 ^ (k - n.expValue) := by positivity
    have hm' : (m : ℚ) ≠ 0 := by exact_mod_cast hm0
    exact (mul_ne_zero hm' h10.ne') this
  obtain ⟨g1, rfl, g3⟩ := h1.short (digits10_le T).1 ⟨m, _, hm, hmv⟩
  have h10P := g3 hP
  rw [hmv] at g1
  have key : ∀ (a b : Nat) (x y : Int), ¬ 10 ∣ a → (a : ℚ) * 10 ^ x = b * 10 ^ y → y ≤ x := by
    intro a b x y ha hab
    by_contra hc
    obtain ⟨j, hj⟩ : ∃ j : Nat, y = x + (j + 1 : Nat) := ⟨(y - x - 1).toNat, by omega⟩
    rw [hj, zpow_add₀ (by norm_num), zpow_natCast] at hab
    have hx : (0 : ℚ) < 10 ^ x := by positivity
    have : (a : ℚ) = b * 10 ^ (j + 1) := by
      apply mul_right_cancel₀ hx.ne'
      rw [hab]; ring
    have : a = b * 10 ^ (j + 1) := by exact_mod_cast this
    exact ha ⟨b * 10 ^ j, by rw [this, pow_succ]; ring⟩
  have hKk : K = k - n.expValue := le_antisymm (key _ _ _ _ h10 g1) (key _ _ _ _ h10P g1.symm)
  rw [← hKk] at g1
  have hx : (0 : ℚ) < 10 ^ K := by positivity
  have hPm : m = P := by exact_mod_cast mul_right_cancel₀ hx.ne' g1
  subst hPm
  have hw := h2 hP
  unfold adjustMantissa at hw
  have hn : DiyFp.normalize T.W { f := m, e := 0 } = .ok w := by
    cases hq : DiyFp.normalize T.W { f := m, e := 0 } with
    | error e => rw [hq] at hw; cases hw
    | ok w' =>
      rw [hq, ok_bind, if_neg (by simp)] at hw
      exact hw
  refine ⟨w, hn, ?_⟩
  obtain ⟨w', Y, w1, w2, w3, -⟩ := mantissa_ok h1 hP
  have hww : w = w' := by
    have := h2 hP
    rw [w1] at this
    exact (Except.ok.inj this).symm
  subst hww
  have hf : w.f ≠ 0 := by
    have : 0 < 2 ^ (T.W - 1) := by positivity
    omega
  have hKb := h1.K_bound hP h.mantLen
  have hEb := h.exp_bound
  rw [krosh_eq_tail h4 rfl hf h.exponent (by dsimp only; omega)]
  congr 1
  dsimp only; omega

/-- Printing a power of two and parsing it back. -/
theorem pow2_round_trip (T : FloatType) (bits e : Nat) (hf : IsFinite T bits) (he : 1 ≤ e)
    (ha : absPat T bits = e * 2 ^ (T.p - 1)) (n : Numeral) (hs : Prints T bits n.text)
    (fb : Fallback) (errno : Nat) (pre rest : List Nat) :
    ∃ x, atof T fb errno (pre ++ (n.text ++ 0 :: rest)) pre.length =
        .ok ⟨if signBit T bits = 1 then neg T x else x, .success, pre.length + n.text.length, errno, false⟩ ∧
      x = if (lostBiased T).contains e then (e - 1) * 2 ^ (T.p - 1) else e * 2 ^ (T.p - 1) := by
  have hlt := absPat_lt_posInf hf
  have h0 : absPat T bits ≠ 0 := by rw [ha]; positivity
  obtain ⟨ds, k, h1, ⟨hne, -, hlast⟩, h3, h4, h4', h4'', hg, h5⟩ := ftoa_main'' T (absPat T bits) hlt h0
  have hn : n = fmtNumeral (decide (signBit T bits = 1)) ds k :=
    numeral_text_inj _ _ (prints_unique hs (h5 bits hf.1 rfl))
  have hl17 : ds.length ≤ 17 := by cases T <;> simp [maxSigDigits] at h1 <;> omega
  have hat : NumeralAt (pre ++ (n.text ++ 0 :: rest)) pre.length n := by
    rw [hn]; exact fmt_at _ hne hl17 h4 pre rest
  have habs : n.absValue = digitsVal ds * 10 ^ k := by
    rw [hn]; exact fmt_absValue _ _ _ hne (fmtK h1 hne h4)
  have hm : digitsVal ds < 10 ^ T.digits10 := by
    refine lt_of_lt_of_le (digitsVal_lt ds) (Nat.pow_le_pow_right (by norm_num) ?_)
    cases T <;> simp [maxSigDigits, digits10] at * <;> omega
  have h10 : ¬ 10 ∣ digitsVal ds := by
    intro hd
    have := getLast_zero_dvd hd hne
    rw [List.getLast?_eq_some_getLast hne] at this
    exact hlast (Option.some.inj this)
  obtain ⟨w, w1, w2⟩ := krosh_digits (T := T) hat hm h10 habs
  have hE : e < 2 ^ (T.W - T.p) - 1 := by
    rw [ha] at hlt
    have : posInf T = (2 ^ (T.W - T.p) - 1) * 2 ^ (T.p - 1) := by cases T <;> decide
    rw [this] at hlt
    exact lt_of_mul_lt_mul_right hlt (by positivity)
  have hc := pow2_all T e he hE
  unfold pow2Check at hc
  rw [grisu2P_eq, ← ha, hg _ (by simpa using hl17)] at hc
  dsimp only at hc
  rw [List.take_left' (by simp), charsVal_digits, w1] at hc
  dsimp only at hc
  rw [scaleStepP_eq] at hc
  cases hsc : scaleStep T w k with
  | error e => rw [hsc] at hc; simp at hc
  | ok w' =>
    rw [hsc] at hc
    dsimp only at hc
    cases hds : w'.downsample T with
    | error e => rw [hds] at hc; simp at hc
    | ok v =>
      rw [hds] at hc
      dsimp only at hc
      rw [decide_eq_true_eq] at hc
      refine ⟨_, ?_, rfl⟩
      have hk : krosh T (pre ++ (n.text ++ 0 :: rest)) pre.length = .ok
          ⟨if signBit T bits = 1 then neg T v.value else v.value, pre.length + n.text.length, .success, true⟩ := by
        rw [w2]
        unfold kroshTail
        rw [if_neg (by tauto), hsc, ok_bind, hds, ok_bind, hc, hn, fmt_isNeg, negBits_eq]
        by_cases hsb : signBit T bits = 1
        · simp [hsb]; rfl
        · simp [hsb]; rfl
      rw [atof_of_krosh hk (by have := text_pos hat.valid; dsimp only; omega), if_pos rfl, hc, ha]

theorem lostExponents_eq (T : FloatType) :
    lostExponents T = (lostBiased T).map (fun e : Nat => T.minExp - 1 + ((e : Int) - 1)) := by
  cases T <;> decide +kernel

theorem bits_split {T : FloatType} {b : Nat} (h : b < 2 ^ T.W) : b = signBit T b * 2 ^ (T.W - 1) + absPat T b := by
  have h2 := two_W T
  unfold signBit absPat
  generalize 2 ^ (T.W - 1) = X at *
  have hX : 0 < X := by omega
  have h3 : b / X < 2 := (Nat.div_lt_iff_lt_mul hX).mpr (by omega)
  have h4 := Nat.div_add_mod b X
  rw [Nat.mod_eq_of_lt h3, mul_comm]; exact h4.symm

theorem bits_of_sign {T : FloatType} {b : Nat} (h : b < 2 ^ T.W) :
    b = if signBit T b = 1 then neg T (absPat T b) else absPat T b := by
  have ha := absPat_lt T b
  have haW : absPat T b < 2 ^ T.W := by rw [two_W]; omega
  have hs0 : signBit T (absPat T b) = 0 := by
    unfold signBit; rw [Nat.div_eq_of_lt ha]
  obtain ⟨n1, n2, n3⟩ := signBit_neg haW
  have h1 := bits_split h
  have h2 := bits_split n3
  rw [n1, n2, absPat_idem, hs0] at h2
  have hlt : signBit T b < 2 := Nat.mod_lt _ (by norm_num)
  split_ifs with hs
  · rw [hs] at h1; rw [h2]; exact h1
  · have : signBit T b = 0 := by omega
    rw [this] at h1; simpa using h1

/-- The pattern of a power of two in the normal range. -/
theorem absPat_pow2 {T : FloatType} {bits : Nat} {j : Int} (hj : |value T bits| = 2 ^ j) (h1 : T.minExp - 1 ≤ j) :
    ∃ e : Nat, 1 ≤ e ∧ j = T.minExp - 1 + ((e : Int) - 1) ∧ absPat T bits = e * 2 ^ (T.p - 1) := by
  obtain ⟨E, hE⟩ : ∃ E : Nat, j = T.minExp - 1 + E := ⟨(j - (T.minExp - 1)).toNat, by omega⟩
  have h0 : (E + 1) * 2 ^ (T.p - 1) ≠ 0 := by positivity
  obtain ⟨E', e1, e2⟩ := N_pow2 (T := T) h0 (Nat.mul_mod_left _ _)
  have hEE : E' = E := by
    have := Nat.eq_of_mul_eq_mul_right (by positivity) e1
    omega
  subst hEE
  refine ⟨E' + 1, by omega, by push_cast; omega, ?_⟩
  rw [value_abs, hE, ← e2] at hj
  apply N_inj (T := T)
  exact_mod_cast mul_right_cancel₀ (emin_pos T).ne' hj

/-- **C22.** Parsing the text `ftoa` prints for a finite non-zero value gives
status success and the end pointer at the terminator, and - provided the
fallback reads correctly if it is asked - the value itself, except for the powers
of two listed in `lostExponents`, where it gives half the value. -/
theorem C22_round_trip (T : FloatType) (bits : Nat) (hf : IsFinite T bits) (h0 : value T bits ≠ 0)
    (n : Numeral) (hs : Prints T bits n.text)
    (fb : Fallback) (errno : Nat) (pre rest : List Nat)
    (hfb : FallbackReads T fb errno (pre ++ (n.text ++ 0 :: rest)) pre.length n) :
    ∃ r, atof T fb errno (pre ++ (n.text ++ 0 :: rest)) pre.length = .ok r ∧
      r.strEnd = pre.length + n.text.length ∧ r.status = .success ∧
      ((∀ j ∈ lostExponents T, |value T bits| ≠ 2 ^ j) → r.value = bits) ∧
      ((∃ j ∈ lostExponents T, |value T bits| = 2 ^ j) → IsFinite T r.value ∧ value T r.value = value T bits / 2) := by
  obtain ⟨r, r1, r2, r3, r4⟩ := round_trip_or_carry T bits hf h0 n hs fb errno pre rest hfb
  refine ⟨r, r1, r2, r3, ?_, ?_⟩
  · intro hj
    rcases r4 with r4 | ⟨-, -, j, j1, j2, -⟩
    · exact r4
    · obtain ⟨e, e1, e2, e3⟩ := absPat_pow2 j2 j1
      obtain ⟨x, x1, x2⟩ := pow2_round_trip T bits e hf e1 e3 n hs fb errno pre rest
      have hne : (lostBiased T).contains e = false := by
        rw [Bool.eq_false_iff]
        intro hc
        apply hj j _ j2
        rw [lostExponents_eq, List.mem_map]
        exact ⟨e, List.contains_iff_mem.mp hc, e2.symm⟩
      rw [hne] at x2
      rw [r1, Except.ok.injEq] at x1
      rw [x1, x2]
      dsimp only
      rw [← e3, if_neg (show ¬ false = true by simp)]
      exact (bits_of_sign hf.1).symm
  · rintro ⟨j, hj, j2⟩
    rw [lostExponents_eq, List.mem_map] at hj
    obtain ⟨e, he, rfl⟩ := hj
    have he2 : 2 ≤ e := by
      have : ∀ e ∈ lostBiased T, 2 ≤ e := by cases T <;> decide +kernel
      exact this e he
    obtain ⟨e', e1, e2, e3⟩ := absPat_pow2 j2 (by omega)
    have hee : e' = e := by omega
    subst hee
    obtain ⟨x, x1, x2⟩ := pow2_round_trip T bits e' hf e1 e3 n hs fb errno pre rest
    rw [if_pos (List.contains_iff_mem.mpr he)] at x2
    rw [r1, Except.ok.injEq] at x1
    have hlt : absPat T bits < posInf T := absPat_lt_posInf hf
    have hxlt : x < posInf T := by
      rw [x2]; rw [e3] at hlt
      exact lt_of_le_of_lt (Nat.mul_le_mul_right _ (by omega)) hlt
    obtain ⟨d, rfl⟩ : ∃ d, e' = d + 2 := ⟨e' - 2, by omega⟩
    have hN : (N T (absPat T bits) : ℚ) = 2 * N T x := by
      obtain ⟨E, a1, a2⟩ := N_pow2 (T := T) (a := absPat T bits) (by rw [e3]; positivity) (by rw [e3]; exact Nat.mul_mod_left _ _)
      have hxx : x = (d + 1) * 2 ^ (T.p - 1) := by rw [x2]; rfl
      obtain ⟨E', b1, b2⟩ := N_pow2 (T := T) (a := x) (by rw [hxx]; positivity) (by rw [hxx]; exact Nat.mul_mod_left _ _)
      have hEE : E = E' + 1 := by
        rw [e3] at a1; rw [hxx] at b1
        have h1 := Nat.eq_of_mul_eq_mul_right (by positivity) a1
        have h2 := Nat.eq_of_mul_eq_mul_right (by positivity) b1
        omega
      apply mul_right_cancel₀ (emin_pos T).ne'
      rw [a2, mul_assoc, b2, hEE, ← zpow_one_add₀ (by norm_num)]
      congr 1; push_cast; ring
    have hv : value T x = N T x * 2 ^ emin T := value_of_lt hxlt
    have hvb : value T (absPat T bits) = 2 * N T x * 2 ^ emin T := by rw [value_of_lt hlt, hN]
    have hbs := bits_of_sign (T := T) hf.1
    rw [x1]
    dsimp only
    by_cases hsb : signBit T bits = 1
    · rw [if_pos hsb] at hbs ⊢
      refine ⟨isFinite_neg (isFinite_of_lt hxlt), ?_⟩
      rw [value_neg (lt_posInf_lt hxlt), hbs, value_neg (lt_posInf_lt hlt), hv, hvb]
      ring
    · rw [if_neg hsb] at hbs ⊢
      refine ⟨isFinite_of_lt hxlt, ?_⟩
      rw [hbs, hv, hvb]; ring

/-- The hypotheses of `C22_round_trip` can be met: for every finite non-zero
value there is a text, and a fallback that reads it correctly. -/
theorem C22_hypotheses (T : FloatType) (bits : Nat) (hf : IsFinite T bits) (h0 : value T bits ≠ 0) (errno str : Nat) (mem : List Nat) :
    ∃ n fb, Prints T bits n.text ∧ FallbackReads T fb errno mem str n := by
  obtain ⟨n, -, h1, -⟩ := C01_ftoa_identifies T bits hf h0
  exact ⟨n, fun _ str _ => ⟨bits, str + n.text.length, 0⟩, h1,
    fun _ _ _ => ⟨(C01_reader T bits hf h0 n h1 bits).mpr rfl, rfl, (by decide : (0 : Nat) ≠ ERANGE)⟩⟩

/-- 0.1 as `double`, in the middle of a longer text. -/
example (fb : Fallback) : atof .double fb 0 (chars "x=0.1\x00zz") 2 = .ok ⟨0x3FB999999999999A, .success, 5, 0, false⟩ ∧
    toBasicString .double 0x3FB999999999999A = .ok (chars "0.1") := by
  have h : krosh .double (chars "x=0.1\x00zz") 2 = .ok ⟨0x3FB999999999999A, 5, .success, true⟩ := by decide +kernel
  exact ⟨by rw [atof_of_krosh h (by decide)]; rfl, by decide +kernel⟩

/-- **C22 refuted in full generality**: `2^29` as `float` is printed as
"536870900", which is read as `2^28`; `2^-27` as `double` is printed as
"7.450580596923828e-09", which is read as `2^-28`. -/
theorem C22_refuted (fb : Fallback) :
    (toBasicString .float 0x4E000000 = .ok (chars "536870900") ∧
      atof .float fb 0 (chars "536870900\x00") 0 = .ok ⟨0x4D800000, .success, 9, 0, false⟩) ∧
    (toBasicString .double 0x3E40000000000000 = .ok (chars "7.450580596923828e-09") ∧
      atof .double fb 0 (chars "7.450580596923828e-09\x00") 0 = .ok ⟨0x3E30000000000000, .success, 21, 0, false⟩) := by
  have h1 : krosh .float (chars "536870900\x00") 0 = .ok ⟨0x4D800000, 9, .success, true⟩ := by decide +kernel
  have h2 : krosh .double (chars "7.450580596923828e-09\x00") 0 = .ok ⟨0x3E30000000000000, 21, .success, true⟩ := by decide +kernel
  refine ⟨⟨by decide +kernel, ?_⟩, by decide +kernel, ?_⟩
  · rw [atof_of_krosh h1 (by decide)]; rfl
  · rw [atof_of_krosh h2 (by decide)]; rfl

/-- The fallback matters for the round trip: there are values whose printed text
`atof` does not convert itself.  `0.02956622f` and `0.003758201963921495` are such:
whatever the fallback answers is the result. -/
theorem C22_fallback_asked (fb : Fallback) :
    (toBasicString .float 0x3cf234db = .ok (chars "0.02956622") ∧
      ∃ r, atof .float fb 0 (chars "0.02956622\x00") 0 = .ok r ∧ Delegated .float fb 0 (chars "0.02956622\x00") 0 r) ∧
    (toBasicString .double 0x3f6ec98550db97d3 = .ok (chars "3.758201963921495e-03") ∧
      ∃ r, atof .double fb 0 (chars "3.758201963921495e-03\x00") 0 = .ok r ∧
        Delegated .double fb 0 (chars "3.758201963921495e-03\x00") 0 r) := by
  have h1 : krosh .float (chars "0.02956622\x00") 0 = .ok ⟨0x3cf234dc, 10, .success, false⟩ := by decide +kernel
  have h2 : krosh .double (chars "3.758201963921495e-03\x00") 0 = .ok ⟨0x3f6ec98550db97d2, 21, .success, false⟩ := by
    decide +kernel
  exact ⟨⟨by decide +kernel, _, atof_of_krosh h1 (by decide), delegated_of⟩,
    ⟨by decide +kernel, _, atof_of_krosh h2 (by decide), delegated_of⟩⟩

end Floaxie
