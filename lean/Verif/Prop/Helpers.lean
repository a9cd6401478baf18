import Verif.Model.Helpers
import Verif.Model.Krosh
import Verif.Prop.Words
import Verif.Prop.Rest

/-!
# Operators of `diy_fp` (C53), bit operations and powers (C54)
-/

namespace Floaxie

open FloatType Spec

/-- The exact value of a `diy_fp`. -/
def DiyFp.val (w : DiyFp) : ℚ := w.f * 2 ^ w.e

/-- **C53, subtraction.** Exact whenever it is defined, that is for equal
exponents and a difference that is not negative; otherwise the assertion fails. -/
theorem C53_sub (T : FloatType) (a b : DiyFp) (ha : a.f < 2 ^ T.W) (hb : b.f < 2 ^ T.W) :
    (a.e = b.e ∧ b.f ≤ a.f → ∃ r, a.sub T.W b = .ok r ∧ r.val = a.val - b.val ∧ r.e = a.e ∧
      r.f < 2 ^ T.W) ∧
    (¬ (a.e = b.e ∧ b.f ≤ a.f) → a.sub T.W b = .error .assertFail) := by
  unfold DiyFp.sub assertM
  constructor
  · rintro ⟨h1, h2⟩
    have hm : (a.f + 2 ^ T.W - b.f) % 2 ^ T.W = a.f - b.f := by
      rw [show a.f + 2 ^ T.W - b.f = (a.f - b.f) + 2 ^ T.W by omega, Nat.add_mod_right,
        Nat.mod_eq_of_lt (by omega)]
    refine ⟨⟨a.f - b.f, a.e⟩, ?_, ?_, rfl, ?_⟩
    · rw [if_pos (by simp [h1, h2]), hm]; rfl
    · unfold DiyFp.val
      dsimp only
      rw [h1, Nat.cast_sub h2]; ring
    · dsimp only; omega
  · intro h
    rw [if_neg]
    · rfl
    · simp only [Bool.and_eq_true, beq_iff_eq, decide_eq_true_eq]
      rintro ⟨h1, h2⟩; exact h ⟨h1, h2⟩

/-- **C53, product.** The product is commutative and within half a unit (of its
last place) of the exact product; the product of normalized numbers has at most
one leading zero bit. -/
theorem C53_mul (T : FloatType) (x y : DiyFp) (hx : x.f < 2 ^ T.W) (hy : y.f < 2 ^ T.W) :
    x.mul T.W y = y.mul T.W x ∧
    |(x.mul T.W y).val - x.val * y.val| ≤ 2 ^ (x.mul T.W y).e / 2 ∧
    (2 ^ (T.W - 1) ≤ x.f → 2 ^ (T.W - 1) ≤ y.f → 2 ^ (T.W - 2) ≤ (x.mul T.W y).f) := by
  obtain ⟨e1, f1, -⟩ := C15_mul T x y hx hy
  obtain ⟨e2, f2, -⟩ := C15_mul T y x hy hx
  refine ⟨?_, ?_, ?_⟩
  · have : ((x.mul T.W y).f : ℤ) = (y.mul T.W x).f := by rw [f1, f2, Nat.mul_comm]
    have hf : (x.mul T.W y).f = (y.mul T.W x).f := by exact_mod_cast this
    have he : (x.mul T.W y).e = (y.mul T.W x).e := by rw [e1, e2]; ring
    generalize x.mul T.W y = a at *
    generalize y.mul T.W x = b at *
    cases a; cases b; simp_all
  · have hW : (0 : ℚ) < 2 ^ T.W := by positivity
    have g1 := Int.floor_le (((x.f * y.f : ℕ) : ℚ) / 2 ^ T.W + 1 / 2)
    have g2 := Int.lt_floor_add_one (((x.f * y.f : ℕ) : ℚ) / 2 ^ T.W + 1 / 2)
    rw [← f1] at g1 g2
    push_cast at g1 g2
    have hE : (0 : ℚ) < 2 ^ (x.mul T.W y).e := by positivity
    have hxy : x.val * y.val = (x.f * y.f / 2 ^ T.W) * 2 ^ (x.mul T.W y).e := by
      unfold DiyFp.val
      rw [e1, zpow_add₀ (by norm_num), zpow_add₀ (by norm_num), zpow_natCast]
      field_simp
    rw [hxy]
    unfold DiyFp.val
    rw [← sub_mul, abs_mul, abs_of_pos hE,
      show (2 : ℚ) ^ (x.mul T.W y).e / 2 = 1 / 2 * 2 ^ (x.mul T.W y).e by ring]
    apply mul_le_mul_of_nonneg_right _ hE.le
    rw [abs_le]
    constructor <;> linarith
  · intro h1 h2
    rw [mul_f T x y hx hy]
    have h3 : 2 ^ (T.W - 1) * 2 ^ (T.W - 1) ≤ x.f * y.f := Nat.mul_le_mul h1 h2
    rw [Nat.le_div_iff_mul_le (by positivity)]
    have h4 : 2 ^ (T.W - 2) * 2 ^ T.W = 2 ^ (T.W - 1) * 2 ^ (T.W - 1) := by cases T <;> decide
    rw [h4]
    exact h3.trans (Nat.le_add_right _ _)

/-- Normalized factors whose product has a leading zero bit. -/
example : (2 : Nat) ^ 31 ≤ 2 ^ 31 + 1 ∧ (⟨2 ^ 31 + 1, 0⟩ : DiyFp).mul 32 ⟨2 ^ 31, 0⟩ = ⟨2 ^ 30 + 1, 32⟩ := by decide

/-- **C53, `++` and `--`.** They undo each other except at the ends of the range
of the mantissa; the postfix forms return the old value and leave the same
object as the prefix forms. -/
theorem C53_inc_dec (T : FloatType) (w : DiyFp) (h : w.f < 2 ^ T.W) :
    (1 < w.f → (w.dec T.W).inc T.W = w) ∧
    ((w.inc T.W).dec T.W = w ↔ w.f ≠ 0 ∧ w.f ≠ 2 ^ T.W - 1) ∧
    w.postInc T.W = (w, w.inc T.W) ∧ w.postDec T.W = (w, w.dec T.W) := by
  obtain ⟨f, e⟩ := w
  dsimp only at h
  have h2 : 4 ≤ 2 ^ T.W := by cases T <;> decide
  have h3 : 2 ^ T.W = 2 * 2 ^ (T.W - 1) := by cases T <;> decide
  refine ⟨?_, ?_, rfl, rfl⟩
  · intro h1
    dsimp only at h1
    unfold DiyFp.dec DiyFp.inc
    dsimp only
    rw [if_pos h1]
    dsimp only
    rw [if_pos (by omega), Nat.sub_add_cancel (by omega), Nat.mod_eq_of_lt h]
  · unfold DiyFp.inc
    dsimp only
    split_ifs with h1
    · rw [Nat.mod_eq_of_lt (by omega)]
      unfold DiyFp.dec
      dsimp only
      split_ifs with h4
      · simp; omega
      · simp; omega
    · have hf : f = 2 ^ T.W - 1 := by omega
      have h4 : (f >>> 1 + 1) % 2 ^ T.W = 2 ^ (T.W - 1) := by
        rw [hf]; cases T <;> decide
      rw [h4]
      unfold DiyFp.dec
      dsimp only
      rw [if_pos (by omega)]
      simp; omega

/-- The ends of the range. -/
example : ((⟨0, 0⟩ : DiyFp).inc 32).dec 32 = ⟨1, -1⟩ ∧
    ((⟨2 ^ 32 - 1, 0⟩ : DiyFp).inc 32).dec 32 = ⟨2 ^ 31 - 1, 1⟩ ∧
    ((⟨5, 0⟩ : DiyFp).inc 32).dec 32 = ⟨5, 0⟩ := by decide

/-- **C53, `==`.** Equality of mantissa and exponent, not of the values. -/
theorem C53_eq (a b : DiyFp) : (a.eqOp b = true ↔ a = b) ∧ a.neOp b = !a.eqOp b ∧
    (a.eqOp b = true → a.val = b.val) := by
  have h : a.eqOp b = true ↔ a = b := by
    obtain ⟨f, e⟩ := a
    obtain ⟨f', e'⟩ := b
    simp [DiyFp.eqOp]
  exact ⟨h, rfl, fun h' => by rw [h.mp h']⟩

/-- Equal values need not be `==`: 2·2^0 and 1·2^1. -/
theorem C53_eq_not_value : (⟨2, 0⟩ : DiyFp).val = (⟨1, 1⟩ : DiyFp).val ∧
    (⟨2, 0⟩ : DiyFp).eqOp ⟨1, 1⟩ = false := by
  refine ⟨by norm_num [DiyFp.val], by decide⟩

example : (⟨7, 3⟩ : DiyFp).sub 32 ⟨5, 3⟩ = .ok ⟨2, 3⟩ := by decide
example : (⟨0, 3⟩ : DiyFp).dec 32 = ⟨2 ^ 32 - 1, 2⟩ := by decide

/-! ## C54 -/

/-- **C54, masks and bits.** -/
theorem C54_bits (W : Nat) (hW : 0 < W) :
    (∀ n, mask W n = 2 ^ min n W - 1) ∧
    (∀ v n, nthBit v n = decide (v / 2 ^ n % 2 = 1)) ∧
    (∀ v, v < 2 ^ W → highestBit W v = decide (2 ^ (W - 1) ≤ v)) ∧
    (∀ n, n < W → raisedBit W n = .ok (2 ^ n)) ∧
    msbValue W = 2 ^ (W - 1) ∧ maxIntegerValue W = 2 ^ W - 1 ∧
    (∀ v : Int, (positivePart v : Int) = max 0 v) := by
  have hbit : ∀ v n, nthBit v n = decide (v / 2 ^ n % 2 = 1) := by
    intro v n
    unfold nthBit
    rw [← Nat.testBit_eq_decide_div_mod_eq, Nat.shiftLeft_eq, one_mul]
    cases h : v.testBit n with
    | true =>
      rw [bne_iff_ne]
      intro h0
      have := congrArg (fun x => x.testBit n) h0
      simp [Nat.testBit_and, h] at this
    | false =>
      rw [bne_eq_false_iff_eq]
      apply Nat.eq_of_testBit_eq
      intro i
      rw [Nat.testBit_and, Nat.testBit_two_pow]
      by_cases hi : n = i
      · subst hi; simp [h]
      · simp [hi]
  refine ⟨?_, hbit, ?_, ?_, ?_, rfl, ?_⟩
  · intro n
    unfold mask
    split_ifs with h
    · rw [Nat.min_eq_left h.le, Nat.shiftLeft_eq, one_mul]
    · rw [Nat.min_eq_right (by omega)]
  · intro v hv
    unfold highestBit
    rw [hbit]
    have h2 : 2 ^ W = 2 * 2 ^ (W - 1) := by rw [← pow_succ', Nat.sub_add_cancel hW]
    have hp : 0 < 2 ^ (W - 1) := by positivity
    by_cases h : 2 ^ (W - 1) ≤ v
    · have : v / 2 ^ (W - 1) = 1 := by
        apply Nat.div_eq_of_lt_le <;> omega
      simp [this, h]
    · rw [Nat.div_eq_of_lt (by omega)]
      simp [h]
  · intro n hn
    unfold raisedBit
    rw [if_pos hn, Nat.shiftLeft_eq, one_mul]
  · unfold msbValue
    rw [Nat.shiftLeft_eq, one_mul]
  · intro v
    unfold positivePart
    exact Int.toNat_of_nonneg (le_max_left _ _)

example : mask 32 5 = 31 ∧ nthBit 20 2 = true ∧ highestBit 32 (2 ^ 31) = true ∧
    raisedBit 32 7 = .ok 128 ∧ positivePart (-3) = 0 := by decide

/-- **C54, absolute value.** Defined and right for all but the least value. -/
theorem C54_abs (W : Nat) (v : Int) (h1 : -2 ^ (W - 1) ≤ v) (h2 : v < 2 ^ (W - 1)) :
    (v ≠ -2 ^ (W - 1) → constexprAbs W v = .ok |v|) ∧
    (v = -2 ^ (W - 1) → constexprAbs W v = .error .signedOverflow) := by
  have hp : (0 : Int) < 2 ^ (W - 1) := by positivity
  unfold constexprAbs
  constructor
  · intro h
    split_ifs with h3 h4
    · rw [abs_of_pos h3]
    · rw [abs_of_nonpos (by omega)]
    · omega
  · intro h
    rw [if_neg (by omega), if_neg (by omega)]

/-- **C54, static powers.** `static_pow` is the power modulo 2^32, hence the power
itself if that fits 32 bits. -/
theorem C54_static_pow (base pow : Nat) :
    staticPow base pow = base ^ pow % 2 ^ 32 ∧ (base ^ pow < 2 ^ 32 → staticPow base pow = base ^ pow) := by
  have h : staticPow base pow = base ^ pow % 2 ^ 32 := by
    induction pow with
    | zero => rfl
    | succ n ih =>
      unfold staticPow
      rw [ih, Nat.mul_mod_mod, ← pow_succ' base n]
  exact ⟨h, fun hlt => by rw [h, Nat.mod_eq_of_lt hlt]⟩

theorem powSequencerValue_eq (W base pow : Nat) (hW : 0 < W) :
    powSequencerValue W base pow = base ^ pow % 2 ^ W := by
  induction pow with
  | zero =>
    unfold powSequencerValue
    rw [pow_zero, Nat.mod_eq_of_lt]
    exact Nat.one_lt_two_pow (by omega)
  | succ n ih =>
    unfold powSequencerValue
    rw [ih, pow_succ, Nat.mod_mul_mod]

theorem powSequence_eq (W base n : Nat) (hW : 0 < W) :
    powSequence W base n = (List.range (n + 1)).map (fun i => base ^ i % 2 ^ W) := by
  induction n with
  | zero =>
    unfold powSequence
    simp [List.range_succ, Nat.mod_eq_of_lt (Nat.one_lt_two_pow (by omega : W ≠ 0))]
  | succ n ih =>
    unfold powSequence
    rw [ih, powSequencerValue_eq W base (n + 1) hW, List.range_succ (n := n + 1), List.map_append]
    rfl

/-- **C54, tables of powers.** `seq_pow<T, base, max_pow>(pow)` is `base^pow`
(modulo the word size) for `pow` up to `max_pow`, and an access past the end of
the array beyond.  (The documentation says the powers are stored in reverse
order, which is not so.)  This is also the function the reader uses. -/
theorem C54_seq_pow (W base maxPow pow : Nat) (hW : 0 < W) :
    seqPowArray W base maxPow pow =
      (if pow ≤ maxPow then .ok (base ^ pow % 2 ^ W) else .error .badIndex) ∧
    seqPowArray W 10 maxPow pow = seqPow W maxPow pow := by
  have h : ∀ base, seqPowArray W base maxPow pow =
      (if pow ≤ maxPow then .ok (base ^ pow % 2 ^ W) else .error .badIndex) := by
    intro base
    unfold seqPowArray
    rw [powSequence_eq W base maxPow hW]
    split_ifs with h
    · rw [List.getElem?_map, List.getElem?_range (by omega)]
      rfl
    · rw [List.getElem?_eq_none (by simp; omega)]
  exact ⟨h base, h 10⟩

example : seqPowArray 32 10 3 3 = .ok 1000 ∧ seqPowArray 32 10 3 4 = .error .badIndex := by decide

/-- **C54, decimal to binary fractions.** With at most as many binary as decimal
digits the conversion is exact, rounded down. -/
theorem C54_convert_numerator (dd bd x : Nat) (h0 : 0 < bd) (h : bd ≤ dd) (hx : x < 10 ^ dd) :
    convertNumerator dd bd x = x * 2 ^ bd / 10 ^ dd := by
  have hdvd : ∀ i ≤ bd, 2 ^ i ∣ 10 ^ dd := fun i hi =>
    (pow_dvd_pow 2 (hi.trans h)).trans (pow_dvd_pow_of_dvd (by norm_num) dd)
  have key : ∀ left x, left < bd → x * 2 ^ (bd - (left + 1)) < 10 ^ dd →
      fractionConvert dd bd left x = x * 2 ^ bd / 10 ^ dd := by
    intro left
    induction left with
    | zero =>
      intro x hl hx
      obtain ⟨q, hq⟩ := hdvd bd le_rfl
      have hq0 : 0 < q := by
        rcases Nat.eq_zero_or_pos q with h | h
        · subst h; simp at hq
        · exact h
      have e : 10 ^ dd / 2 ^ bd = q := by rw [hq]; exact Nat.mul_div_cancel_left _ (by positivity)
      have e2 : x * 2 ^ bd / 10 ^ dd = x / q := by
        rw [hq, Nat.mul_comm x, Nat.mul_div_mul_left _ _ (by positivity)]
      unfold fractionConvert
      rw [e, e2]
      have h2 : 2 ^ bd = 2 * 2 ^ (bd - (0 + 1)) := by rw [← pow_succ']; congr 1; omega
      have h3 : x < 2 * q := by
        rw [hq, h2] at hx
        have hp : 0 < 2 ^ (bd - (0 + 1)) := by positivity
        by_contra hc
        push Not at hc
        have := Nat.mul_le_mul_right (2 ^ (bd - (0 + 1))) hc
        have e3 : 2 * q * 2 ^ (bd - (0 + 1)) = 2 * 2 ^ (bd - (0 + 1)) * q := by ring
        omega
      split_ifs with h4
      · exact (Nat.div_eq_of_lt_le (by omega) (by omega)).symm
      · exact (Nat.div_eq_of_lt (by omega)).symm
    | succ left ih =>
      intro x hl hx
      obtain ⟨q, hq⟩ := hdvd (bd - (left + 1)) (by omega)
      have e : 10 ^ dd / 2 ^ (bd - (left + 1)) = q := by
        rw [hq]; exact Nat.mul_div_cancel_left _ (by positivity)
      unfold fractionConvert
      dsimp only
      rw [e]
      have h2 : 2 ^ (bd - (left + 1)) = 2 * 2 ^ (bd - (left + 1 + 1)) := by
        rw [← pow_succ']; congr 1; omega
      have hp : 0 < 2 ^ (bd - (left + 1 + 1)) := by positivity
      have h3 : x < 2 * q := by
        rw [hq, h2] at hx
        by_contra hc
        push Not at hc
        have := Nat.mul_le_mul_right (2 ^ (bd - (left + 1 + 1))) hc
        have e3 : 2 * q * 2 ^ (bd - (left + 1 + 1)) = 2 * 2 ^ (bd - (left + 1 + 1)) * q := by ring
        omega
      have hlt := fractionConvert_lt dd bd left
      have hbd : 2 ^ bd = 2 ^ (bd - (left + 1)) * 2 ^ (left + 1) := by
        rw [← pow_add]; congr 1; omega
      have hsmall : ∀ y, y < q → y * 2 ^ (bd - (left + 1)) < 10 ^ dd := by
        intro y hy
        rw [hq, Nat.mul_comm]
        exact Nat.mul_lt_mul_of_pos_left hy (by positivity)
      split_ifs with h4
      · rw [one_mul, Nat.shiftLeft_eq, one_mul]
        have h5 := ih (x - q) (by omega) (hsmall _ (by omega))
        have h6 := Nat.two_pow_add_eq_or_of_lt (hlt (x - q)) 1
        rw [mul_one] at h6
        rw [← h6, h5]
        have e4 : x * 2 ^ bd = (x - q) * 2 ^ bd + 10 ^ dd * 2 ^ (left + 1) := by
          rw [hq, hbd]
          obtain ⟨z, rfl⟩ : ∃ z, x = q + z := ⟨x - q, by omega⟩
          rw [Nat.add_sub_cancel_left]; ring
        rw [e4, Nat.add_mul_div_left _ _ (by positivity)]
        ring
      · rw [Nat.zero_shiftLeft, Nat.zero_or, Nat.zero_mul, Nat.sub_zero]
        exact ih x (by omega) (hsmall _ (by omega))
  unfold convertNumerator
  apply key _ _ (by omega)
  rw [show bd - (bd - 1 + 1) = 0 by omega]
  simpa using hx

/-- 0.625 = 0.101 in binary (the example in the documentation). -/
example : convertNumerator 3 3 625 = 5 := by decide
example : staticPow 10 9 = 1000000000 := by decide
/-- Ten digits no longer fit. -/
example : staticPow 10 10 ≠ 10 ^ 10 := by decide
example : constexprAbs 32 (-57) = .ok 57 := by decide

/-- **C54, decimal to binary fractions, any number of digits.** The result has at most
`bd` bits; as a binary fraction it is less than `bd` units of the last decimal place
above the decimal fraction, and less than that and one unit of the last binary place
below it. -/
theorem C54_convert_numerator_error (dd bd x : Nat) (h0 : 0 < bd) (hx : x < 10 ^ dd) :
    convertNumerator dd bd x < 2 ^ bd ∧
    (convertNumerator dd bd x : ℚ) / 2 ^ bd < x / 10 ^ dd + bd / 10 ^ dd ∧
    (x : ℚ) / 10 ^ dd - bd / 10 ^ dd - 1 / 2 ^ bd < (convertNumerator dd bd x : ℚ) / 2 ^ bd := by
  have hN : (0 : ℚ) < 10 ^ dd := by positivity
  have hB : (0 : ℚ) < 2 ^ bd := by positivity
  -- the truncated weight of a binary place
  have hw : ∀ i ≤ bd, ((10 ^ dd / 2 ^ i : Nat) : ℚ) ≤ 10 ^ dd * 2 ^ (bd - i) / 2 ^ bd ∧
      (10 : ℚ) ^ dd * 2 ^ (bd - i) / 2 ^ bd < ((10 ^ dd / 2 ^ i : Nat) : ℚ) + 1 := by
    intro i hi
    have h1 : (10 : ℚ) ^ dd * 2 ^ (bd - i) / 2 ^ bd = ((10 ^ dd : Nat) : ℚ) / ((2 ^ i : Nat) : ℚ) := by
      rw [div_eq_div_iff (by positivity) (by positivity)]
      push_cast
      rw [mul_assoc, ← pow_add, Nat.sub_add_cancel hi]
    rw [h1]
    have h2 : (0 : ℚ) < ((2 ^ i : Nat) : ℚ) := by positivity
    constructor
    · rw [le_div_iff₀ h2]
      exact_mod_cast Nat.div_mul_le_self _ _
    · rw [div_lt_iff₀ h2]
      have := Nat.lt_div_mul_add (a := 10 ^ dd) (b := 2 ^ i) (by positivity)
      have h3 : ((10 ^ dd : Nat) : ℚ) < ((10 ^ dd / 2 ^ i * 2 ^ i + 2 ^ i : Nat) : ℚ) := by exact_mod_cast this
      rw [Nat.cast_add, Nat.cast_mul] at h3
      linarith
  have key : ∀ (left x : Nat), left < bd → ∀ a : ℚ, 0 ≤ a → (x : ℚ) < 10 ^ dd * 2 ^ (left + 1) / 2 ^ bd + a →
      (fractionConvert dd bd left x : ℚ) * 10 ^ dd / 2 ^ bd < x + (left + 1) ∧
      (x : ℚ) < (fractionConvert dd bd left x + 1) * 10 ^ dd / 2 ^ bd + (a + (left + 1)) := by
    intro left
    induction left with
    | zero =>
      intro x hl a ha0 ha
      obtain ⟨h1, h2⟩ := hw bd le_rfl
      rw [Nat.sub_self, pow_zero, mul_one] at h1 h2
      rw [zero_add, pow_one] at ha
      unfold fractionConvert
      have hx0 : (0 : ℚ) ≤ x := Nat.cast_nonneg x
      split_ifs with hd
      · have hd' : ((10 ^ dd / 2 ^ bd : Nat) : ℚ) ≤ x := by exact_mod_cast hd
        push_cast
        constructor
        · rw [one_mul]; linarith
        · have : (10 : ℚ) ^ dd * 2 / 2 ^ bd = (1 + 1) * 10 ^ dd / 2 ^ bd := by ring
          linarith
      · have hd' : (x : ℚ) < ((10 ^ dd / 2 ^ bd : Nat) : ℚ) := by exact_mod_cast not_le.mp hd
        push_cast
        constructor
        · simp; linarith
        · have hE : ((0 : ℚ) + 1) * 10 ^ dd / 2 ^ bd = 10 ^ dd / 2 ^ bd := by ring
          have h4 : (10 : ℚ) ^ dd * 2 / 2 ^ bd = 10 ^ dd / 2 ^ bd + 10 ^ dd / 2 ^ bd := by ring
          have h5 : (0 : ℚ) < 10 ^ dd / 2 ^ bd := by positivity
          linarith
    | succ left ih =>
      intro x hl a ha0 ha
      obtain ⟨h1, h2⟩ := hw (bd - (left + 1)) (Nat.sub_le _ _)
      rw [Nat.sub_sub_self (by omega : left + 1 ≤ bd)] at h1 h2
      have hlt := fractionConvert_lt dd bd left
      have hpow : (10 : ℚ) ^ dd * 2 ^ (left + 1 + 1) / 2 ^ bd =
          10 ^ dd * 2 ^ (left + 1) / 2 ^ bd + 10 ^ dd * 2 ^ (left + 1) / 2 ^ bd := by ring
      rw [hpow] at ha
      unfold fractionConvert
      dsimp only
      split_ifs with hd
      · have hd' : ((10 ^ dd / 2 ^ (bd - (left + 1)) : Nat) : ℚ) ≤ x := by exact_mod_cast hd
        rw [one_mul, ← Nat.shiftLeft_add_eq_or_of_lt (hlt _), Nat.one_shiftLeft]
        have hsub : ((x - 10 ^ dd / 2 ^ (bd - (left + 1)) : Nat) : ℚ) = x - ((10 ^ dd / 2 ^ (bd - (left + 1)) : Nat) : ℚ) :=
          Nat.cast_sub hd
        have := ih (x - 10 ^ dd / 2 ^ (bd - (left + 1))) (by omega) (a + 1) (by linarith) (by rw [hsub]; linarith)
        rw [hsub] at this
        generalize fractionConvert dd bd left (x - 10 ^ dd / 2 ^ (bd - (left + 1))) = c at *
        generalize ((10 ^ dd / 2 ^ (bd - (left + 1)) : Nat) : ℚ) = w at *
        have e1 : ((2 ^ (left + 1) + c : Nat) : ℚ) * 10 ^ dd / 2 ^ bd = 10 ^ dd * 2 ^ (left + 1) / 2 ^ bd + c * 10 ^ dd / 2 ^ bd := by
          push_cast; ring
        have e2 : (((2 ^ (left + 1) + c : Nat) : ℚ) + 1) * 10 ^ dd / 2 ^ bd = 10 ^ dd * 2 ^ (left + 1) / 2 ^ bd + (c + 1) * 10 ^ dd / 2 ^ bd := by
          push_cast; ring
        rw [e1, e2]
        push_cast
        constructor <;> linarith [this.1, this.2]
      · have hd' : (x : ℚ) < ((10 ^ dd / 2 ^ (bd - (left + 1)) : Nat) : ℚ) := by exact_mod_cast not_le.mp hd
        rw [zero_mul, Nat.sub_zero, Nat.zero_shiftLeft, Nat.zero_or]
        have := ih x (by omega) (a + 1) (by linarith) (by linarith)
        push_cast
        constructor <;> linarith [this.1, this.2]
  have := key (bd - 1) x (by omega) 0 le_rfl (by
    rw [Nat.sub_add_cancel h0, mul_div_assoc, div_self hB.ne', mul_one, add_zero]
    exact_mod_cast hx)
  have hc : ((bd - 1 : Nat) : ℚ) + 1 = bd := by
    rw [Nat.cast_sub h0]; push_cast; ring
  rw [hc, zero_add] at this
  have hlt := fractionConvert_lt dd bd (bd - 1) x
  rw [Nat.sub_add_cancel h0] at hlt
  unfold convertNumerator
  refine ⟨hlt, ?_, ?_⟩
  · rw [← add_div, lt_div_iff₀ hN, div_mul_eq_mul_div]
    exact this.1
  · rw [← sub_div, sub_lt_iff_lt_add, ← add_div, div_lt_iff₀ hN, div_mul_eq_mul_div]
    linarith [this.2]

/-- 4 decimal, 7 binary digits, as in the reader. -/
example : convertNumerator 4 7 9999 = 127 := by decide

end Floaxie
