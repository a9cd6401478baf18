import Verif.Model.Flush
import Verif.Prop.DefaultFallback
import Verif.Prop.RoundTrip

/-!
# The denormals-are-zero mode (C95)
-/

namespace Floaxie

open Spec FloatType

/-- `bits` is a subnormal number: not zero and smaller in magnitude than every normal number. -/
def Subnormal (T : FloatType) (bits : Nat) : Prop :=
  IsFinite T bits ∧ value T bits ≠ 0 ∧ |value T bits| < 2 ^ (T.minExp - 1)

theorem minNormal_eq (T : FloatType) : (2 : ℚ) ^ (T.minExp - 1) = 2 ^ (T.p - 1) * 2 ^ emin T := by
  rw [← zpow_natCast, ← zpow_add₀ (by norm_num)]
  congr 1
  cases T <;> decide

theorem abs_lt_minNormal {T : FloatType} {b : Nat} : |value T b| < 2 ^ (T.minExp - 1) ↔ absPat T b < 2 ^ (T.p - 1) := by
  rw [value_abs, minNormal_eq]
  have hu := emin_pos T
  have e1 : N T (2 ^ (T.p - 1)) = 2 ^ (T.p - 1) := by cases T <;> decide
  constructor
  · intro h
    have h1 := lt_of_mul_lt_mul_right h hu.le
    have h2 : N T (absPat T b) < 2 ^ (T.p - 1) := by exact_mod_cast h1
    rw [← e1] at h2
    exact (N_strictMono T).lt_iff_lt.mp h2
  · intro h
    have h2 := N_lt (T := T) h
    rw [e1] at h2
    exact mul_lt_mul_of_pos_right (by exact_mod_cast h2) hu

theorem operand_off {T : FloatType} {b : Nat} : operand false T b = b := by
  unfold operand; rw [if_neg (by simp)]

/-- The mode touches subnormal numbers only. -/
theorem operand_same {T : FloatType} {b : Nat} (hb : b < 2 ^ T.W) (h : ¬ Subnormal T b) (daz : Bool) : operand daz T b = b := by
  unfold operand
  by_cases hc : daz = true ∧ T.absBits b < 2 ^ (T.p - 1)
  · rw [if_pos hc]
    have ha : absPat T b < 2 ^ (T.p - 1) := hc.2
    have hz : absPat T b = 0 := by
      by_contra h0
      refine h ⟨?_, fun hv => h0 (value_zero_iff.mp hv), abs_lt_minNormal.mpr ha⟩
      refine ⟨hb, ?_⟩
      rw [expField_eq, Nat.div_eq_of_lt ha]
      cases T <;> decide
    have hs : b = b / 2 ^ (T.W - 1) * 2 ^ (T.W - 1) := by
      have := Nat.div_add_mod b (2 ^ (T.W - 1))
      have hz' : b % 2 ^ (T.W - 1) = 0 := hz
      rw [hz', Nat.add_zero] at this
      rw [mul_comm]; exact this.symm
    have h2 := two_W T
    unfold isNegative
    by_cases hn : 2 ^ (T.W - 1) ≤ b
    · rw [decide_eq_true hn, if_pos rfl]
      have hP : 0 < 2 ^ (T.W - 1) := by positivity
      have h1 : b / 2 ^ (T.W - 1) = 1 := by
        apply Nat.div_eq_of_lt_le <;> omega
      rw [hs, h1, Nat.one_mul]
    · rw [decide_eq_false hn, if_neg (by simp)]
      rw [hs, Nat.div_eq_of_lt (by omega), Nat.zero_mul]
  · rw [if_neg hc]

/-- A subnormal number counts as zero. -/
theorem operand_zero {T : FloatType} {b : Nat} (h : Subnormal T b) : isZero T (operand true T b) = true := by
  unfold operand
  rw [if_pos ⟨rfl, abs_lt_minNormal.mp h.2.2⟩]
  split_ifs <;> cases T <;> decide

theorem ftoaF_same [FpEval] {T : FloatType} {daz : Bool} {b : Nat} (h : operand daz T b = b) (buf : List Nat) :
    ftoaF daz T b buf = ftoa T b buf := by
  unfold ftoaF ftoa eqZero gtZero ltZero
  rw [h]
  by_cases hn : isNan T b = true
  · rw [if_pos hn, if_pos hn]
  rw [if_neg hn, if_neg hn]
  by_cases hi : isInf T b = true
  · rw [if_pos hi, if_pos hi]
    have hz : isZero T b = false := by
      unfold isInf at hi
      unfold isZero
      rw [decide_eq_true_eq] at hi
      rw [hi]
      cases T <;> decide
    rw [hz]
    simp only [Bool.not_false, Bool.and_true]
  rw [if_neg hi, if_neg hi]
  by_cases hz : isZero T b = true
  · rw [if_pos hz, if_pos hz]
  rw [if_neg hz, if_neg hz]
  rw [Bool.not_eq_true] at hz
  rw [hz]
  simp only [Bool.not_false, Bool.and_true]

theorem atofF_same [Locale] {T : FloatType} {daz : Bool} {fb : Fallback} {errno : Nat} {mem : List Nat} {str : Nat}
    (h : operand daz T (fb mem str errno).value = (fb mem str errno).value) :
    atofF daz T fb errno mem str = atof T fb errno mem str := by
  unfold atofF atof checkErrnoF checkErrno eqZero
  dsimp only
  rw [h]

/-- Without the mode, the functions of this model are those used everywhere else. -/
theorem C95_off [FpEval] [Locale] (T : FloatType) (bits : Nat) (buf : List Nat) (fb : Fallback) (errno : Nat) (mem : List Nat) (str : Nat) :
    ftoaF false T bits buf = ftoa T bits buf ∧ toBasicStringF false T bits = toBasicString T bits ∧
      atofF false T fb errno mem str = atof T fb errno mem str := by
  refine ⟨ftoaF_same operand_off buf, ?_, atofF_same operand_off⟩
  unfold toBasicStringF toBasicString
  rw [ftoaF_same operand_off]

/-- **C95, printing.** Where the processor takes subnormal operands as zeros, every value that is not subnormal is printed
as without that mode, with the same buffer and length; every subnormal number is printed as zero. -/
theorem C95_print (T : FloatType) (bits : Nat) (hb : bits < 2 ^ T.W) :
    (¬ Subnormal T bits → (∀ buf, ftoaF true T bits buf = ftoa T bits buf) ∧ toBasicStringF true T bits = toBasicString T bits) ∧
    (Subnormal T bits → (∀ buf, ftoaF true T bits buf = ftoa T 0 buf) ∧ toBasicStringF true T bits = .ok (chars "0")) := by
  constructor
  · intro h
    have h1 := fun buf => ftoaF_same (operand_same hb h true) buf
    refine ⟨h1, ?_⟩
    unfold toBasicStringF toBasicString
    rw [h1]
  · intro h
    have hn : isNan T bits = false := by
      have := abs_lt_minNormal.mp h.2.2
      unfold isNan FloatType.absBits
      unfold absPat at this
      rw [decide_eq_false_iff_not]
      have h2 : 2 ^ (T.p - 1) ≤ T.infBits := by cases T <;> decide
      omega
    have hi : isInf T bits = false := by
      have := abs_lt_minNormal.mp h.2.2
      unfold isInf FloatType.absBits
      unfold absPat at this
      rw [decide_eq_false_iff_not]
      have h2 : 2 ^ (T.p - 1) ≤ T.infBits := by cases T <;> decide
      omega
    have h1 : ∀ buf, ftoaF true T bits buf = ftoa T 0 buf := by
      intro buf
      unfold ftoaF ftoa eqZero
      rw [hn, hi, operand_zero h]
      have a1 : isNan T 0 = false := by cases T <;> decide
      have a2 : isInf T 0 = false := by cases T <;> decide
      have a3 : isZero T 0 = true := by cases T <;> decide
      rw [a1, a2, a3]
      rfl
    refine ⟨h1, ?_⟩
    unfold toBasicStringF
    rw [h1]
    cases T <;> decide

/-- **C95, parsing.** In that mode `atof` does what it does without it - same value, end pointer, `errno`, undefined
behaviour - with one exception: where the fallback is asked, sets `errno` to `ERANGE` and returns a subnormal number, the
status is underflow instead of overflow. -/
theorem C95_parse (T : FloatType) (fb : Fallback) (errno : Nat) (mem : List Nat) (str : Nat)
    (hfb : (fb mem str errno).value < 2 ^ T.W) :
    (∃ e, atof T fb errno mem str = .error e ∧ atofF true T fb errno mem str = .error e) ∨
    ∃ r, atof T fb errno mem str = .ok r ∧
      ((¬ (r.fellBack = true ∧ r.errno = ERANGE ∧ Subnormal T r.value) ∧ atofF true T fb errno mem str = .ok r) ∨
       ((r.fellBack = true ∧ r.errno = ERANGE ∧ Subnormal T r.value) ∧ r.status = .overflow ∧
        atofF true T fb errno mem str = .ok { r with status := .underflow })) := by
  by_cases hs : Subnormal T (fb mem str errno).value
  · cases h : atof T fb errno mem str with
    | error e =>
      left
      refine ⟨e, rfl, ?_⟩
      unfold atof at h
      unfold atofF
      cases hk : krosh T mem str with
      | error e' => rw [hk] at h; exact h
      | ok k =>
        rw [hk, ok_bind] at h
        split_ifs at h <;> cases h
    | ok r =>
      right
      refine ⟨r, rfl, ?_⟩
      unfold atof at h
      unfold atofF
      cases hk : krosh T mem str with
      | error e' => rw [hk] at h; cases h
      | ok k =>
        rw [hk, ok_bind] at h
        rw [ok_bind]
        by_cases h1 : k.strEnd ≠ str
        · rw [if_pos h1] at h ⊢
          by_cases h2 : k.isAccurate = true
          · rw [if_pos h2] at h ⊢
            left
            have : r.fellBack = false := by cases h; rfl
            exact ⟨by rw [this]; simp, h⟩
          · rw [if_neg h2] at h ⊢
            have hr := Except.ok.inj h
            have hz : isZero T (fb mem str errno).value = false := by
              rw [Bool.eq_false_iff]; exact fun hz => hs.2.1 (isZero_iff.mp hz)
            by_cases he : (fb mem str errno).errno = ERANGE
            · right
              subst hr
              refine ⟨⟨rfl, he, hs⟩, ?_, ?_⟩
              · show checkErrno T _ _ = _
                unfold checkErrno
                rw [if_neg (by simp [he]), hz]; rfl
              · unfold checkErrnoF eqZero
                dsimp only
                rw [if_neg (by simp [he]), operand_zero hs]; rfl
            · left
              subst hr
              refine ⟨fun c => he c.2.1, ?_⟩
              unfold checkErrnoF checkErrno
              dsimp only
              rw [if_pos he, if_pos he]; rfl
        · rw [if_neg h1] at h ⊢
          left
          have : r.fellBack = false := by cases h; rfl
          exact ⟨by rw [this]; simp, h⟩
  · rw [atofF_same (operand_same hfb hs true)]
    cases h : atof T fb errno mem str with
    | error e => exact .inl ⟨e, rfl, rfl⟩
    | ok r =>
      refine .inr ⟨r, rfl, .inl ⟨?_, rfl⟩⟩
      rintro ⟨h1, -, h3⟩
      have := (asked_result h h1).2
      rw [this] at h3
      exact hs h3

/-- 2^-1074, and the greatest subnormal `float`, negative. -/
example : Subnormal .double 1 ∧ Subnormal .float 0x807FFFFF ∧ ¬ Subnormal .double 0 ∧ ¬ Subnormal .float 0x00800000 := by
  refine ⟨⟨isFinite_of_lt (by decide), by decide +kernel, abs_lt_minNormal.mpr (by decide)⟩,
    ⟨by unfold IsFinite; decide, by decide +kernel, abs_lt_minNormal.mpr (by decide)⟩, fun h => h.2.1 (by decide +kernel), fun h => ?_⟩
  exact absurd (abs_lt_minNormal.mp h.2.2) (by decide)

/-- The difference in printing is real: the least positive number. -/
theorem C95_print_differs :
    ftoaF true .double 1 (List.replicate 34 0) ≠ ftoaF false .double 1 (List.replicate 34 0) := by
  decide +kernel

/-- The difference in parsing is real: the status for "101739e-313", with any conforming fallback that sets `ERANGE`
there (`C71_underflow_hypotheses` shows that there is one). -/
theorem C95_parse_differs (fb : Fallback) (hc : Conforming .double cNum fb)
    (hE : (fb (subTie.text ++ [0]) 0 0).errno = ERANGE) :
    ∃ r, atofF false .double fb 0 (subTie.text ++ [0]) 0 = .ok r ∧ r.status = .overflow ∧
      atofF true .double fb 0 (subTie.text ++ [0]) 0 = .ok { r with status := .underflow } := by
  obtain ⟨r, h1, h2, h3, h4, h5⟩ := C71_underflow_as_overflow fb hc hE
  have hres : r.fellBack = true ∧ r.errno = ERANGE ∧ r.value = (fb (subTie.text ++ [0]) 0 0).value := by
    by_cases hf : r.fellBack = true
    · have := asked_result h1 hf
      have hs := this.2
      rw [hs]
      exact ⟨rfl, hE, rfl⟩
    · exfalso
      have hk : ∃ v, krosh .double (subTie.text ++ [0]) 0 = .ok ⟨v, 11, .success, false⟩ := ⟨2059220284923248, by decide +kernel⟩
      obtain ⟨v, hk⟩ := hk
      obtain ⟨r', r1, r2⟩ := asked_of_krosh (fb := fb) (errno := 0) hk (by simp) rfl
      rw [h1] at r1
      exact hf (by rw [Except.ok.inj r1]; exact r2)
  have hfin : IsFinite .double r.value := h2.1
  refine ⟨r, by rw [atofF_same operand_off]; exact h1, h3, ?_⟩
  rcases C95_parse .double fb 0 (subTie.text ++ [0]) 0 (by rw [← hres.2.2]; exact hfin.1) with ⟨e, he, -⟩ | ⟨r', e1, e2⟩
  · rw [h1] at he; cases he
  · rw [h1] at e1
    obtain rfl := Except.ok.inj e1
    rcases e2 with ⟨e2, -⟩ | ⟨-, -, e2⟩
    · refine absurd ⟨hres.1, hres.2.1, hfin, ?_, ?_⟩ e2
      · intro h0
        have hst := (C63_value_status .double fb 0 _ 0 r h1).2 hres.1
        rw [hst.2.2.2, hE, if_neg (by simp), if_neg (by rw [← hres.2.2]; exact not_not.mpr h0)] at h3
        cases h3
      · have hlt : subTie.value < 2 ^ (-1023 : Int) := by
          have hval : subTie.value = 101739 * 10 ^ (-313 : Int) := by
            simp [subTie, Numeral.value, Numeral.absValue, Numeral.isNeg, Numeral.fracDigits, Numeral.expValue, ExpPart.value, digitsVal]
          have h : 101739 * 2 ^ 1023 < 10 ^ 313 := by decide +kernel
          have h' : (101739 : ℚ) * 2 ^ 1023 < 10 ^ 313 := by exact_mod_cast h
          rw [hval, zpow_neg, zpow_neg, ← div_eq_mul_inv, ← one_div, div_lt_div_iff₀ (by positivity) (by positivity), one_mul]
          exact h'
        have hle := roundsTo_le h2 (b' := 0) ⟨by decide, by decide⟩
        have h0 : value .double 0 = 0 := by decide +kernel
        rw [h0, sub_zero, abs_of_pos h4] at hle
        have htwo : (2 : ℚ) ^ (-1022 : Int) = 2 * 2 ^ (-1023 : Int) := by
          rw [← zpow_one_add₀ (by norm_num)]; norm_num
        show |value .double r.value| < 2 ^ (-1022 : Int)
        rw [htwo, abs_lt]
        rw [abs_le] at hle
        constructor <;> linarith [hle.1, hle.2]
    · exact e2

end Floaxie
