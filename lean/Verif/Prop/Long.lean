import Verif.Prop.Rest

/-!
# C40: texts longer than the 2 KB limit
-/

namespace Floaxie

open FloatType Spec

/-- `krosh` on a text of 2050 characters of a number. -/
theorem krosh_limit {T : FloatType} {mem : List Nat} {str : Nat} {n : Numeral} {R : List Nat} (hn : Nul mem str)
    (hx : n.exp = none) (hm : mem.drop str = (signText n.sign ++ n.mantText) ++ R) (hl : (signText n.sign ++ n.mantText).length = 2050) :
    (n.absValue = 0 → krosh T mem str = .ok { value := if n.isNeg then negBits T 0 else 0, strEnd := str + 2049, status := .success, isAccurate := true }) ∧
    (n.absValue ≠ 0 → ∃ (w : DiyFp) (Y : ℚ) (K : Int), 2 ^ (T.W - 1) ≤ w.f ∧ w.f < 2 ^ T.W ∧ n.absValue = Y * 10 ^ K ∧
      |Y - w.f * 2 ^ w.e| ≤ mantErr T * 2 ^ w.e ∧
      (Short T.digits10 n.absValue → Y = w.f * 2 ^ w.e) ∧ (Short T.digits10 n.absValue → ∃ P : Nat, Y = P ∧ ¬ 10 ∣ P) ∧
      krosh T mem str = kroshTail T w K (!n.isNeg) (str + 2049)) := by
  have hm' : mem.drop str = scanText n ++ R := hm
  have hl' : (scanText n).length = 2050 := hl
  have hR : R = mem.drop (str + (scanText n).length) := by rw [← List.drop_drop, hm', List.drop_left]
  have hnul : Nul mem (str + (scanText n).length) := hn.skip (t := scanText n) (by rw [← hR]; exact hm') (scanText_ne_zero n)
  obtain ⟨P, K, frac, h1, h2⟩ := parseDigits_limit (T := T) hm' hnul.stops hl'
  have hv : n.absValue = mantVal n := by
    rw [absValue_eq]; simp [Numeral.expValue, hx]
  obtain ⟨c, c1, c2, c3⟩ := limit_char hl' (by rw [hR, hl'] at hm'; exact hm')
  constructor
  · intro h0
    have hP : P = 0 := h1.zero_iff.mpr (by rw [← hv]; exact h0)
    unfold krosh parseMantissa
    rw [h2, ok_bind]
    dsimp only
    rw [if_pos rfl, if_neg (by simpa using hP), hP]
    cases n.isNeg <;> rfl
  · intro h0
    have hP : P ≠ 0 := fun hz => h0 (by rw [hv]; exact h1.zero_iff.mp hz)
    obtain ⟨w, Y, w1, w2, w3, w4, w5, w6, w7, w8, w9⟩ := mantissa_ok h1 hP
    have h10K : (0 : ℚ) < 10 ^ K := by positivity
    refine ⟨w, Y, K, w2, w3, by rw [hv, w4], w6, by rw [hv]; exact w7, ?_, ?_⟩
    · intro hs
      rw [hv] at hs
      obtain ⟨g1, -, g3⟩ := h1.short (digits10_le T).1 hs
      exact ⟨P, mul_right_cancel₀ h10K.ne' (w4.symm.trans g1), g3 hP⟩
    · have hpm : parseMantissa T mem str = .ok ⟨w, K, str + 2049, .no, !n.isNeg⟩ := by
        unfold parseMantissa
        rw [h2, ok_bind]
        dsimp only
        rw [if_pos rfl, if_pos (by simpa using hP), w1]
        rfl
      have hf : w.f ≠ 0 := by
        have : 0 < 2 ^ (T.W - 1) := by positivity
        omega
      have hKb : -2050 ≤ K ∧ K ≤ 2050 := by
        rcases h1 with ⟨-, h, -⟩ | ⟨z, ds, tail, g1, -, -, -, hK, -⟩
        · exact absurd h hP
        · have h3 : tail.length ≤ (allDigits n).length := by rw [g1]; simp; omega
          have h4 := scanText_length n
          have h5 : n.fracDigits.length ≤ (allDigits n).length := by simp [allDigits]
          omega
      rw [krosh_eq_tail hpm rfl hf (parseExponent_none c1 ⟨c2, c3⟩) (by dsimp only; omega)]
      simp

/-- **C40, zero.** 2050 characters of a zero: zero, and the end pointer is one
before the last character read. -/
theorem C40_zero (T : FloatType) (fb : Fallback) (errno : Nat) (mem : List Nat) (str : Nat) (n : Numeral) (R : List Nat)
    (hn : Nul mem str) (hx : n.exp = none) (hm : mem.drop str = (signText n.sign ++ n.mantText) ++ R)
    (hl : (signText n.sign ++ n.mantText).length = 2050) (h0 : n.value = 0) :
    atof T fb errno mem str = .ok ⟨if n.isNeg then neg T 0 else 0, .success, str + 2049, errno, false⟩ := by
  have h0' : n.absValue = 0 := by rw [← abs_value_num, h0, abs_zero]
  rw [atof_of_krosh ((krosh_limit hn hx hm hl).1 h0') (by dsimp only; omega), if_pos rfl, negBits_eq]

/-- **C40.** A string that starts with 2050 characters of a non-zero number (sign,
digits, point), whatever follows: the call is defined; unless the fallback is
asked, the end pointer is after the first 2049 characters - although the 2050th
is used.  If the number `n` these 2050 characters spell
has at most 19 / 9 significant digits, value, status and use of the fallback are
those of any (shorter) numeral of that value. -/
theorem C40_long (T : FloatType) (fb : Fallback) (errno : Nat) (mem : List Nat) (str : Nat) (n : Numeral) (R : List Nat)
    (hn : Nul mem str) (hx : n.exp = none) (hm : mem.drop str = (signText n.sign ++ n.mantText) ++ R)
    (hl : (signText n.sign ++ n.mantText).length = 2050) (h0 : n.value ≠ 0) :
    ∃ r, atof T fb errno mem str = .ok r ∧ (Delegated T fb errno mem str r ∨ (r.fellBack = false ∧ r.strEnd = str + 2049)) ∧
      ∀ mem' str' n', NumeralAt mem' str' n' → n'.value = n.value → Short T.digits10 n.absValue →
        ∃ r', atof T fb errno mem' str' = .ok r' ∧ r'.fellBack = r.fellBack ∧
          (r.fellBack = false → r'.value = r.value ∧ r'.status = r.status) := by
  have ha0 : n.absValue ≠ 0 := by rw [← abs_value_num]; exact abs_ne_zero.mpr h0
  obtain ⟨w, Y, K, w2, w3, w4, -, w7, w8, hk⟩ := (krosh_limit (T := T) hn hx hm hl).2 ha0
  have common : ∀ mem' str' n', NumeralAt mem' str' n' → n'.value = n.value → Short T.digits10 n.absValue →
      krosh T mem' str' = kroshTail T w K (!n.isNeg) (str' + n'.text.length) ∧ 0 < n'.text.length := by
    intro mem' str' n' h' hv hs
    have ha : n'.absValue = n.absValue := by rw [← abs_value_num, ← abs_value_num, hv]
    have hpos : ∀ {m : Numeral}, 0 ≤ m.absValue := fun {m} => absValue_nonneg m
    have hneg : n.isNeg = n'.isNeg := by
      unfold Numeral.value at hv
      cases h1 : n.isNeg <;> cases h2 : n'.isNeg
      · rfl
      · rw [h1, h2] at hv; simp at hv; have := hpos (m := n'); have := hpos (m := n); exfalso; apply ha0; linarith
      · rw [h1, h2] at hv; simp at hv; have := hpos (m := n'); have := hpos (m := n); exfalso; apply ha0; linarith
      · rfl
    obtain ⟨w', Y', K', b1, b2, -, -, b3, -, -, -, b4, -, b5, b6⟩ := krosh_num (T := T) h' (by rw [ha]; exact ha0)
    rw [ha] at b3 b4 b5
    obtain ⟨P, p1, p2⟩ := w8 hs
    obtain ⟨P', p1', p2'⟩ := b5 hs
    rw [w4, p1, p1'] at b3
    obtain ⟨rfl, rfl⟩ := pow10_unique b3 p2 p2'
    have hw : w = w' := normalized_unique (W_pos T) (by rw [← w7 hs, ← b4 hs, p1, p1']) w2 w3 b1 b2
    rw [b6, hw, hneg]
    exact ⟨rfl, text_pos h'.valid⟩
  rcases kroshTail_total w2 w3 K with ⟨-, t⟩ | ⟨-, v, st, acc, -, t⟩
  · rw [t] at hk
    refine ⟨_, atof_of_krosh hk (by dsimp only; omega), Or.inr ⟨rfl, rfl⟩, fun mem' str' n' h' hv hs => ?_⟩
    obtain ⟨k1, k2⟩ := common mem' str' n' h' hv hs
    rw [t] at k1
    exact ⟨_, atof_of_krosh k1 (by dsimp only; omega), rfl, fun _ => ⟨rfl, rfl⟩⟩
  · rw [t] at hk
    cases acc with
    | true =>
      refine ⟨_, atof_of_krosh hk (by dsimp only; omega), Or.inr ⟨rfl, rfl⟩, fun mem' str' n' h' hv hs => ?_⟩
      obtain ⟨k1, k2⟩ := common mem' str' n' h' hv hs
      rw [t] at k1
      exact ⟨_, atof_of_krosh k1 (by dsimp only; omega), rfl, fun _ => ⟨rfl, rfl⟩⟩
    | false =>
      refine ⟨_, atof_of_krosh hk (by dsimp only; omega), Or.inl delegated_of, fun mem' str' n' h' hv hs => ?_⟩
      obtain ⟨k1, k2⟩ := common mem' str' n' h' hv hs
      rw [t] at k1
      exact ⟨_, atof_of_krosh k1 (by dsimp only; omega), rfl, fun hf => by cases hf⟩

/-- `z` zeros and a five. -/
def zerosFive (z : Nat) : Numeral := ⟨none, List.replicate z 0 ++ [5], none, none⟩

theorem zerosFive_text (z : Nat) : signText (zerosFive z).sign ++ (zerosFive z).mantText = List.replicate z 48 ++ [53] := by
  simp [zerosFive, signText, Numeral.mantText, digitChar, List.map_replicate]

theorem zerosFive_value (z : Nat) : (zerosFive z).value = 5 := by
  have : digitsVal (List.replicate z (0 : Fin 10) ++ [5]) = 5 := by
    rw [digitsVal_append, digitsVal_replicate_zero]; rfl
  simp [zerosFive, Numeral.value, Numeral.absValue, Numeral.isNeg, Numeral.fracDigits, Numeral.expValue, this]

/-- **C40, the ideal claim is false:** 2049 zeros followed by "5e3" give the value
5, and the end pointer is before the 5, so the digit would be read again. -/
theorem C40_refuted (T : FloatType) (fb : Fallback) (errno : Nat) :
    ∃ v, value T v = 5 ∧ atof T fb errno (List.replicate 2049 48 ++ (chars "5e3" ++ [0])) 0 = .ok ⟨v, .success, 2049, errno, false⟩ ∧
      (List.replicate 2049 48 ++ (chars "5e3" ++ [0])).drop 2049 = chars "5e3" ++ [0] := by
  have hz : 2049 + 1 = 2050 := rfl
  generalize 2049 = z at hz ⊢
  have hnul : Nul (List.replicate z 48 ++ (chars "5e3" ++ [0])) 0 := by
    refine ⟨z + 3, by omega, ?_⟩
    rw [List.getElem?_append_right (by simp), List.length_replicate, Nat.add_sub_cancel_left]; rfl
  have e : chars "5e3" ++ [0] = [53] ++ [101, 51, 0] := by decide
  obtain ⟨r, h1, h2, h3⟩ := C40_long T fb errno (List.replicate z 48 ++ (chars "5e3" ++ [0])) 0 (zerosFive z) [101, 51, 0] hnul rfl
    (by rw [zerosFive_text, List.drop_zero, e, List.append_assoc]) (by rw [zerosFive_text]; simpa using hz) (by rw [zerosFive_value]; norm_num)
  set five : Numeral := ⟨none, [5], none, none⟩ with hfive
  have h5 : five.absValue = (5 : Nat) := by
    norm_num [hfive, Numeral.absValue, Numeral.fracDigits, Numeral.expValue, digitsVal]
  have h5v : five.value = 5 := by
    have : five.value = five.absValue := rfl
    rw [this, h5]; norm_num
  have hat : NumeralAt (five.text ++ [0]) 0 five := numeralAt_cstr ⟨by decide, by intro e he; cases he⟩ (by decide) (by intro e he; cases he)
  obtain ⟨b, b1, b2, b3⟩ := C35_integers T fb errno _ 0 five hat 5 (by norm_num) (by cases T <;> decide) h5
  obtain ⟨r', g1, g2, g3⟩ := h3 _ 0 five hat (by rw [zerosFive_value, h5v])
    ⟨5, 0, by cases T <;> decide, by rw [← abs_value_num, zerosFive_value]; norm_num⟩
  rw [b3] at g1
  cases g1
  have g4 := g3 g2.symm
  refine ⟨b, by rw [b2, h5v], ?_, ?_⟩
  · rw [h1]
    obtain ⟨v, st, en, er, f⟩ := r
    simp only at g2 g4 h2
    obtain ⟨rfl, rfl⟩ := g4
    subst g2
    rcases h2 with h2 | ⟨-, h2⟩
    · cases h2.1
    · have := (C38_own_result T fb errno _ 0 _ h1 rfl).1
      simp only at this
      rw [h2, this, show 0 + 2049 = z by omega]
  · rw [List.drop_left' (by simp)]

end Floaxie
