import Verif.Prop.Spelling
import Verif.Spec.LastPlace
import Verif.Proof.Short
import Verif.Proof.Total

/-!
# C27: exactly when a minus sign is lost
-/

namespace Floaxie

open Spec FloatType

/-- The place is determined by the number. -/
theorem lastPlace_unique {κ : Nat} (hκ : 0 < κ) {x : ℚ} {K K' : Int} (h : LastPlace κ x K) (h' : LastPlace κ x K') : K = K' := by
  have key : ∀ {K K' : Int}, LastPlace κ x K → LastPlace κ x K' → ¬ K < K' := by
    rintro K K' ⟨P, -, p2, p3⟩ ⟨Q, -, -, q3⟩ hlt
    obtain ⟨d, hd⟩ : ∃ d : Nat, K' = K + (d + 1 : Nat) := ⟨(K' - K - 1).toNat, by push_cast; omega⟩
    have h10 : (0 : ℚ) < 10 ^ K := by positivity
    have hK' : (10 : ℚ) ^ K' = 10 ^ (d + 1) * 10 ^ K := by
      rw [hd, zpow_add₀ (by norm_num), zpow_natCast, mul_comm]
    rcases q3 with ⟨q3, -⟩ | ⟨q3, q4, -⟩
    · have hx : x = ((Q * 10 ^ (d + 1) : Nat) : ℚ) * 10 ^ K := by rw [q3, hK']; push_cast; ring
      rcases p3 with ⟨p3, p4⟩ | ⟨-, p4, p5⟩
      · rw [hx] at p3
        have := mul_right_cancel₀ h10.ne' p3
        have : Q * 10 ^ (d + 1) = P := by exact_mod_cast this
        apply p4
        rw [← this, pow_succ]
        exact ⟨Q * 10 ^ d, by ring⟩
      · rw [hx] at p4 p5
        have a1 := lt_of_mul_lt_mul_right p4 h10.le
        have a2 := lt_of_mul_lt_mul_right p5 h10.le
        have a1' : P < Q * 10 ^ (d + 1) := by exact_mod_cast a1
        have a2' : Q * 10 ^ (d + 1) < P + 1 := by exact_mod_cast a2
        omega
    · have hx : x < (P + 1) * 10 ^ K ∨ x = P * 10 ^ K := by
        rcases p3 with ⟨p3, -⟩ | ⟨-, -, p3⟩
        · exact Or.inr p3
        · exact Or.inl p3
      have hx : x < (P + 1) * 10 ^ K := by
        rcases hx with hx | hx
        · exact hx
        · rw [hx]; nlinarith
      have hle : (P + 1) ≤ Q * 10 ^ (d + 1) := by
        have e : 10 ^ κ = 10 ^ (κ - 1) * 10 := by rw [← pow_succ]; congr 1; omega
        have : 10 ≤ 10 ^ (d + 1) := by rw [pow_succ]; have : 0 < 10 ^ d := by positivity
                                       omega
        calc P + 1 ≤ 10 ^ κ := p2
          _ = 10 ^ (κ - 1) * 10 := e
          _ ≤ Q * 10 ^ (d + 1) := Nat.mul_le_mul q3 this
      have hle' : ((P : ℚ) + 1) ≤ Q * 10 ^ (d + 1) := by exact_mod_cast hle
      rw [hK', ← mul_assoc] at q4
      have := mul_le_mul_of_nonneg_right hle' h10.le
      linarith
  rcases lt_trichotomy K K' with hc | hc | hc
  · exact absurd hc (key h h')
  · exact hc
  · exact absurd hc (key h' h)

theorem readsExact_place {κ : Nat} {n : Numeral} {P : Nat} {K : Int} {frac : Nat} (h : ReadsExact κ n P K frac) (hP : P ≠ 0) :
    LastPlace κ n.absValue (K + n.expValue) := by
  rcases h with ⟨-, h, -⟩ | ⟨z, ds, tail, h1, ⟨d, ds', h2, h2'⟩, h3, rfl, h5, h6⟩
  · exact absurd h hP
  · have hx : n.absValue = ((digitsVal ds : ℚ) + digitsVal tail / 10 ^ tail.length) * 10 ^ (K + n.expValue) := by
      rw [absValue_eq, mantVal_split h1, ← h5, mul_assoc, ← zpow_add₀ (by norm_num)]
    refine ⟨digitsVal ds, Nat.pos_of_ne_zero hP, lt_of_lt_of_le (digitsVal_lt ds) (Nat.pow_le_pow_right (by norm_num) h3), ?_⟩
    have h10 : (0 : ℚ) < 10 ^ (K + n.expValue) := by positivity
    rcases h6 with ⟨a1, -, a3⟩ | ⟨a1, a2, -⟩
    · left
      refine ⟨by rw [hx, digitsVal_all_zero a1]; simp, ?_⟩
      have hne : ds ≠ [] := by rw [h2]; simp
      intro hdvd
      apply a3
      have h7 := digitsVal_mod_ten ds hne
      rw [Nat.mod_eq_zero_of_dvd hdvd] at h7
      rw [List.getLast?_eq_some_getLast hne]
      exact congrArg some (Fin.ext h7.symm)
    · right
      have ht : 0 < digitsVal tail := Nat.pos_of_ne_zero (digitsVal_ne_zero_of a2)
      have ht' : (digitsVal tail : ℚ) < 10 ^ tail.length := by exact_mod_cast digitsVal_lt tail
      have hf1 : 0 < (digitsVal tail : ℚ) / 10 ^ tail.length := by positivity
      have hf2 : (digitsVal tail : ℚ) / 10 ^ tail.length < 1 := by rw [div_lt_one (by positivity)]; exact ht'
      refine ⟨?_, ?_, ?_⟩
      · rw [← a1, h2]; simpa using digitsVal_head (ds := ds') h2'
      · rw [hx]; exact mul_lt_mul_of_pos_right (by linarith) h10
      · rw [hx]; exact mul_lt_mul_of_pos_right (by linarith) h10

/-- The conversion of a nonzero numeral, by the place of its last digit read; the
sign enters only at the end. -/
theorem krosh_place {T : FloatType} {mem mem' : List Nat} {str str' : Nat} {n n' : Numeral}
    (h : NumeralAt mem str n) (h' : NumeralAt mem' str' n') (hs : SameMagnitude n n') (h0 : n.absValue ≠ 0) :
    ∃ (w : DiyFp) (K : Int), LastPlace T.digits10 n.absValue K ∧ 2 ^ (T.W - 1) ≤ w.f ∧ w.f < 2 ^ T.W ∧
      krosh T mem str = kroshTail T w K (!n.isNeg) (str + n.text.length) ∧
      krosh T mem' str' = kroshTail T w K (!n'.isNeg) (str' + n'.text.length) := by
  obtain ⟨c, R, hm, he, hd⟩ := h.scan
  obtain ⟨c', R', hm', he', hd'⟩ := h'.scan
  obtain ⟨P, K, frac, w, h1, g1, h2, h3, h4⟩ := parseMantissa_num (T := T) hm he h.mantLen
  obtain ⟨P', K', frac', w', h1', g1', h2', h3', h4'⟩ := parseMantissa_num (T := T) hm' he' h'.mantLen
  obtain ⟨rfl, rfl, rfl⟩ := readsExact_unique g1 g1' hs
  have hmv : mantVal n ≠ 0 := by
    intro hz; apply h0; rw [absValue_eq, hz, zero_mul]
  have hP : P ≠ 0 := fun hz => hmv (h1.zero_iff.mp hz)
  have hww : w = w' := by
    have := h2 hP
    rw [h2' hP] at this
    exact (Except.ok.inj this).symm
  subst hww
  obtain ⟨w', Y, w1, w2, w3, w4, w5, w6, w7, w8, w9⟩ := mantissa_ok h1 hP
  have hww : w = w' := by
    have := h2 hP
    rw [w1] at this
    exact (Except.ok.inj this).symm
  subst hww
  have hf : w.f ≠ 0 := by
    have : 0 < 2 ^ (T.W - 1) := by positivity
    omega
  have hKb := h1.K_bound hP h.mantLen
  have hEb := h.exp_bound
  have hEb' := h'.exp_bound
  refine ⟨w, K + n.expValue, readsExact_place g1 hP, w2, w3, ?_, ?_⟩
  · rw [krosh_eq_tail h4 rfl hf h.exponent (by dsimp only; omega)]
  · rw [krosh_eq_tail h4' rfl hf h'.exponent (by dsimp only; omega), hs.exp]

/-- **C27, the exit without sign.** When the place of the last digit read is
below `10^powLo` or above `10^powHi` (`-50`/`50` for float, `-344`/`343` for
double), the result is plus zero with status underflow or plus infinity with
status overflow, whatever the sign of the numeral; the fallback is not asked. -/
theorem C27_out_of_table (T : FloatType) (fb : Fallback) (errno : Nat) (mem : List Nat) (str : Nat) (n : Numeral)
    (h : NumeralAt mem str n) (K : Int) (hK : LastPlace T.digits10 n.absValue K) (hout : K < T.powLo ∨ T.powHi < K) :
    atof T fb errno mem str = .ok ⟨if K < T.powLo then 0 else posInf T, if K < T.powLo then .underflow else .overflow,
      str + n.text.length, errno, false⟩ := by
  have hκ : 0 < T.digits10 := by cases T <;> decide
  have hpos := text_pos h.valid
  have h0 : n.absValue ≠ 0 := by
    obtain ⟨P, p1, -, p2⟩ := hK
    have h10 : (0 : ℚ) < 10 ^ K := by positivity
    have : (0 : ℚ) < P := by exact_mod_cast p1
    rcases p2 with ⟨p2, -⟩ | ⟨-, p2, -⟩
    · rw [p2]; positivity
    · have : (0 : ℚ) < P * 10 ^ K := by positivity
      linarith
  obtain ⟨w, K', k1, w1, w2, k2, -⟩ := krosh_place (T := T) h h ⟨rfl, rfl, rfl⟩ h0
  obtain rfl := lastPlace_unique hκ hK k1
  have hT : T.powLo ≤ 0 ∧ 0 ≤ T.powHi := by cases T <;> decide
  rcases kroshTail_total w1 w2 K with ⟨-, t⟩ | ⟨t, -⟩
  · rw [t] at k2
    rw [atof_of_krosh k2 (by dsimp only; omega), if_pos rfl]
  · omega

/-- **C27, exactly when the minus is lost.** Without fallback, '-' before an
unsigned numeral negates the value unless the place of the last digit read is
outside the table, and then it changes nothing. -/
theorem C27_minus (T : FloatType) (fb : Fallback) (errno : Nat) (mem mem' : List Nat) (str str' : Nat) (n : Numeral)
    (hn : n.sign = none) (h : NumeralAt mem str n) (h' : NumeralAt mem' str' (withSign true n)) :
    ∃ r r', atof T fb errno mem str = .ok r ∧ atof T fb errno mem' str' = .ok r' ∧ r.fellBack = r'.fellBack ∧
      (r.fellBack = true → Delegated T fb errno mem str r ∧ Delegated T fb errno mem' str' r') ∧
      (r.fellBack = false → r'.status = r.status ∧ r'.strEnd - str' = r.strEnd - str + 1 ∧
        ((∃ K, LastPlace T.digits10 n.absValue K ∧ (K < T.powLo ∨ T.powHi < K)) → r'.value = r.value) ∧
        ((¬ ∃ K, LastPlace T.digits10 n.absValue K ∧ (K < T.powLo ∨ T.powHi < K)) → r'.value = neg T r.value)) := by
  obtain ⟨r, r', h1, h2, h3, h4, h5⟩ := C27_sign T fb errno mem mem' str str' n true hn h h'
  refine ⟨r, r', h1, h2, h3, h4, fun hf => ?_⟩
  obtain ⟨s1, s2, -, -⟩ := h5 hf
  refine ⟨s1, s2, ?_, ?_⟩
  · rintro ⟨K, k1, k2⟩
    have a1 := C27_out_of_table T fb errno mem str n h K k1 k2
    have a2 := C27_out_of_table T fb errno mem' str' (withSign true n) h' K k1 k2
    rw [h1, Except.ok.injEq] at a1
    rw [h2, Except.ok.injEq] at a2
    rw [a1, a2]
  · intro hno
    have hneg : n.isNeg = false := by unfold Numeral.isNeg; rw [hn]; rfl
    have hneg' : (withSign true n).isNeg = true := rfl
    have hpos := text_pos h.valid
    have hpos' := text_pos h'.valid
    by_cases h0 : n.absValue = 0
    · have z : ∀ d ∈ n.int ++ n.fracDigits, d = 0 := by
        apply digitsVal_eq_zero
        unfold Numeral.absValue at h0
        have : (digitsVal (n.int ++ n.fracDigits) : ℚ) = 0 := by
          rcases mul_eq_zero.mp h0 with h0 | h0
          · exact h0
          · exact absurd h0 (zpow_ne_zero _ (by norm_num))
        exact_mod_cast this
      have a1 := C34_zero T fb errno mem str n h z
      have a2 := C34_zero T fb errno mem' str' (withSign true n) h' z
      rw [h1, Except.ok.injEq] at a1
      rw [h2, Except.ok.injEq] at a2
      rw [a1, a2]
      dsimp only
      rw [hn]; rfl
    · obtain ⟨w, K, p1, w1, w2, k1, k2⟩ := krosh_place (T := T) h h' ⟨rfl, rfl, rfl⟩ h0
      rcases kroshTail_total w1 w2 K with ⟨t1, -⟩ | ⟨-, v, st, acc, -, t⟩
      · exact absurd ⟨K, p1, by omega⟩ hno
      · rw [t] at k1 k2
        have a1 := atof_of_krosh (fb := fb) (errno := errno) k1 (by dsimp only; omega)
        have a2 := atof_of_krosh (fb := fb) (errno := errno) k2 (by dsimp only; omega)
        rw [h1, Except.ok.injEq] at a1
        rw [h2, Except.ok.injEq] at a2
        cases acc with
        | false => rw [a1] at hf; cases hf
        | true =>
          rw [a1, a2]
          rw [hneg, hneg']
          rfl

/-- The hypotheses are met by "1e400" and "-1e400", whose last digit is at `10^400`,
and by "0.1" and "-0.1", whose last digit is at `10^-1`. -/
theorem lastPlace_big : LastPlace 19 (10 ^ (400 : Int)) 400 :=
  ⟨1, by norm_num, by norm_num, Or.inl ⟨by simp, by norm_num⟩⟩

example (fb : Fallback) : ∃ r r', atof .double fb 0 (chars "1e400\x00") 0 = .ok r ∧ atof .double fb 0 (chars "-1e400\x00") 0 = .ok r' ∧
    (r.fellBack = false → r'.value = r.value) := by
  obtain ⟨r, r', h1, h2, -, -, h5⟩ := C27_minus .double fb 0 (chars "1e400\x00") (chars "-1e400\x00") 0 0
    ⟨none, [1], none, some ⟨false, none, [4, 0, 0]⟩⟩ rfl
    (numeralAt_cstr (n := ⟨none, [1], none, some ⟨false, none, [4, 0, 0]⟩⟩) ⟨by decide, by intro e he; cases he; decide⟩ (by decide)
      (by intro e he; cases he; exact ⟨by decide, readable_of_lt (by decide)⟩))
    (numeralAt_cstr (n := ⟨some true, [1], none, some ⟨false, none, [4, 0, 0]⟩⟩) ⟨by decide, by intro e he; cases he; decide⟩ (by decide)
      (by intro e he; cases he; exact ⟨by decide, readable_of_lt (by decide)⟩))
  refine ⟨r, r', h1, h2, fun hf => (h5 hf).2.2.1 ⟨400, ?_, Or.inr (by decide)⟩⟩
  have : Numeral.absValue ⟨none, [1], none, some ⟨false, none, [4, 0, 0]⟩⟩ = 10 ^ (400 : Int) := by
    unfold Numeral.absValue Numeral.fracDigits Numeral.expValue
    have e1 : digitsVal ([1] : List (Fin 10)) = 1 := by decide
    have e2 : ExpPart.value ⟨false, none, [4, 0, 0]⟩ = 400 := by decide
    simp [e1, e2]
  rw [this]
  exact lastPlace_big

end Floaxie
