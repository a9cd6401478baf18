import Verif.Prop.Same

/-!
# Long numerals: late digits are ignored (C76) and the spelling matters (C43, C50)
-/

namespace Floaxie

open Spec FloatType

/-- "1019636781.9e-3" -/
def spellA : Numeral := ⟨none, [1,0,1,9,6,3,6,7,8,1], some [9], some ⟨false, some true, [3]⟩⟩
/-- "10196367819e-4" -/
def spellB : Numeral := ⟨none, [1,0,1,9,6,3,6,7,8,1,9], none, some ⟨false, some true, [4]⟩⟩
/-- "101963678189e-5" -/
def spellC : Numeral := ⟨none, [1,0,1,9,6,3,6,7,8,1,8,9], none, some ⟨false, some true, [5]⟩⟩

/-- "10120937651690569877.9e-9" -/
def spellA' : Numeral := ⟨none, [1,0,1,2,0,9,3,7,6,5,1,6,9,0,5,6,9,8,7,7], some [9], some ⟨false, some true, [9]⟩⟩
/-- "101209376516905698779e-10" -/
def spellB' : Numeral := ⟨none, [1,0,1,2,0,9,3,7,6,5,1,6,9,0,5,6,9,8,7,7,9], none, some ⟨false, some true, [1,0]⟩⟩
/-- "1012093765169056987789e-11" -/
def spellC' : Numeral := ⟨none, [1,0,1,2,0,9,3,7,6,5,1,6,9,0,5,6,9,8,7,7,8,9], none, some ⟨false, some true, [1,1]⟩⟩

theorem spell_krosh :
    krosh .float (spellA.text ++ [0]) 0 = .ok ⟨0x4978ef4c, 15, .success, true⟩ ∧
    krosh .float (spellB.text ++ [0]) 0 = .ok ⟨0x4978ef4d, 14, .success, true⟩ ∧
    krosh .float (spellC.text ++ [0]) 0 = .ok ⟨0x4978ef4d, 15, .success, true⟩ ∧
    krosh .double (spellA'.text ++ [0]) 0 = .ok ⟨0x4202da0a059d8649, 25, .success, true⟩ ∧
    krosh .double (spellB'.text ++ [0]) 0 = .ok ⟨0x4202da0a059d864a, 25, .success, true⟩ ∧
    krosh .double (spellC'.text ++ [0]) 0 = .ok ⟨0x4202da0a059d864a, 26, .success, true⟩ := by decide +kernel

theorem spell_values : spellA.value = spellB.value ∧ spellC.value < spellA.value ∧
    spellA'.value = spellB'.value ∧ spellC'.value < spellA'.value := by
  refine ⟨?_, ?_, ?_, ?_⟩ <;>
    norm_num [spellA, spellB, spellC, spellA', spellB', spellC', Numeral.value, Numeral.isNeg, Numeral.absValue,
      Numeral.fracDigits, Numeral.expValue, ExpPart.value, digitsVal]

/-- **C43, long numerals are refuted.** With more than 9 (`float`) / 19 (`double`)
significant digits the spelling matters: "1019636781.9e-3" and "10196367819e-4", or
"10120937651690569877.9e-9" and "101209376516905698779e-10", denote the same number
but are read as different values, without the fallback being asked. -/
theorem C43_long_refuted (fb : Fallback) (errno : Nat) :
    (spellA.value = spellB.value ∧
      atof .float fb errno (chars "1019636781.9e-3" ++ [0]) 0 = .ok ⟨0x4978ef4c, .success, 15, errno, false⟩ ∧
      atof .float fb errno (chars "10196367819e-4" ++ [0]) 0 = .ok ⟨0x4978ef4d, .success, 14, errno, false⟩ ∧
      value .float 0x4978ef4c < value .float 0x4978ef4d) ∧
    (spellA'.value = spellB'.value ∧
      atof .double fb errno (chars "10120937651690569877.9e-9" ++ [0]) 0 =
        .ok ⟨0x4202da0a059d8649, .success, 25, errno, false⟩ ∧
      atof .double fb errno (chars "101209376516905698779e-10" ++ [0]) 0 =
        .ok ⟨0x4202da0a059d864a, .success, 25, errno, false⟩ ∧
      value .double 0x4202da0a059d8649 < value .double 0x4202da0a059d864a) := by
  obtain ⟨h1, h2, -, h4, h5, -⟩ := spell_krosh
  exact ⟨⟨spell_values.1, atof_of_krosh h1 (by decide), atof_of_krosh h2 (by decide), by decide +kernel⟩,
    spell_values.2.2.1, atof_of_krosh h4 (by decide), atof_of_krosh h5 (by decide), by decide +kernel⟩

/-- **C50, long numerals are refuted.** A smaller number may be read as a larger
value: "101963678189e-5" < "1019636781.9e-3" (`float`), "1012093765169056987789e-11" <
"10120937651690569877.9e-9" (`double`). -/
theorem C50_long_refuted (fb : Fallback) (errno : Nat) :
    (spellC.value < spellA.value ∧
      atof .float fb errno (chars "101963678189e-5" ++ [0]) 0 = .ok ⟨0x4978ef4d, .success, 15, errno, false⟩ ∧
      atof .float fb errno (chars "1019636781.9e-3" ++ [0]) 0 = .ok ⟨0x4978ef4c, .success, 15, errno, false⟩ ∧
      value .float 0x4978ef4c < value .float 0x4978ef4d) ∧
    (spellC'.value < spellA'.value ∧
      atof .double fb errno (chars "1012093765169056987789e-11" ++ [0]) 0 =
        .ok ⟨0x4202da0a059d864a, .success, 26, errno, false⟩ ∧
      atof .double fb errno (chars "10120937651690569877.9e-9" ++ [0]) 0 =
        .ok ⟨0x4202da0a059d8649, .success, 25, errno, false⟩ ∧
      value .double 0x4202da0a059d8649 < value .double 0x4202da0a059d864a) := by
  obtain ⟨h1, -, h3, h4, -, h6⟩ := spell_krosh
  exact ⟨⟨spell_values.2.1, atof_of_krosh h3 (by decide), atof_of_krosh h1 (by decide), by decide +kernel⟩,
    spell_values.2.2.2, atof_of_krosh h6 (by decide), atof_of_krosh h4 (by decide), by decide +kernel⟩

/-! ## C76: late digits are ignored -/

theorem late_reads {κ z : Nat} {n : Numeral} {P : Nat} {K : Int} {frac : Nat} {D t : List (Fin 10)} {d : Fin 10} {D' : List (Fin 10)}
    (h : ReadsExact κ n P K frac) (hall : allDigits n = List.replicate z 0 ++ (D ++ t)) (hd : D = d :: D') (hd0 : d ≠ 0)
    (hκ : κ ≤ D.length) (hne : ¬ ∀ x ∈ D.drop κ ++ t, x = 0) :
    P = digitsVal (D.take κ) ∧ K = (n.int.length : Int) - z - κ ∧
      frac = convertNumerator 4 7 (tail4 (if n.int.length ≤ z + κ then D.drop κ ++ t
        else (D.drop κ ++ t).take (n.int.length - z - κ))) % 256 := by
  have hlen : n.int.length + n.fracDigits.length = z + (D.length + t.length) := by
    have := congrArg List.length hall
    simpa [allDigits] using this
  rcases h with ⟨h1, -⟩ | ⟨z', ds, tail, h1, ⟨a, ds', rfl, ha⟩, h3, h4, h5, h6⟩
  · exact absurd (h1 d (by rw [hall, hd]; simp)) hd0
  · have e : (a :: ds') ++ tail = D ++ t := by
      have e1 := head_dropWhile (z := z') (L := ds' ++ tail) ha (show (a :: ds') ++ tail = a :: (ds' ++ tail) from rfl)
      have e2 := head_dropWhile (z := z) (L := D' ++ t) hd0 (show D ++ t = d :: (D' ++ t) by rw [hd]; rfl)
      rw [← e1, ← h1, hall, e2]
    have hsplit : D ++ t = D.take κ ++ (D.drop κ ++ t) := by rw [← List.append_assoc, List.take_append_drop]
    obtain ⟨c1, c2⟩ := core_unique (κ := κ) (e.trans hsplit) h3 (by simp) (by
        rcases h6 with ⟨g1, -, g3⟩ | ⟨g1, g2, -⟩
        · exact Or.inl ⟨g1, g3⟩
        · exact Or.inr ⟨g1, g2⟩) (Or.inr ⟨by simpa using hκ, hne⟩)
    have ht : tail.length = D.length - κ + t.length := by rw [c2]; simp
    refine ⟨by rw [h4, c1], by rw [h5, ht]; omega, ?_⟩
    rcases h6 with ⟨g1, -, -⟩ | ⟨-, -, g3⟩
    · rw [c2] at g1; exact absurd g1 hne
    · rw [g3, fracSource, ← c2]
      by_cases hc : n.int.length ≤ z + κ
      · rw [if_pos (by omega), if_pos hc]
      · rw [if_neg (by omega), if_neg hc, show tail.length - n.fracDigits.length = n.int.length - z - κ by omega]

theorem krosh_of_reads {T : FloatType} {mem mem' : List Nat} {str str' : Nat} {n n' : Numeral}
    (h : NumeralAt mem str n) (h' : NumeralAt mem' str' n')
    (hR : ∀ P K f P' K' f', ReadsExact T.digits10 n P K f → ReadsExact T.digits10 n' P' K' f' → P = P' ∧ K = K' ∧ f = f')
    (hexp : n.expValue = n'.expValue) (h0 : n.absValue ≠ 0) :
    ∃ (w : DiyFp) (K : Int), 2 ^ (T.W - 1) ≤ w.f ∧ w.f < 2 ^ T.W ∧
      krosh T mem str = kroshTail T w K (!n.isNeg) (str + n.text.length) ∧
      krosh T mem' str' = kroshTail T w K (!n'.isNeg) (str' + n'.text.length) := by
  obtain ⟨c, R, hm, he, hd⟩ := h.scan
  obtain ⟨c', R', hm', he', hd'⟩ := h'.scan
  obtain ⟨P, K, frac, w, h1, g1, h2, h3, h4⟩ := parseMantissa_num (T := T) hm he h.mantLen
  obtain ⟨P', K', frac', w', h1', g1', h2', h3', h4'⟩ := parseMantissa_num (T := T) hm' he' h'.mantLen
  obtain ⟨rfl, rfl, rfl⟩ := hR _ _ _ _ _ _ g1 g1'
  have hmv : mantVal n ≠ 0 := by
    intro hz; apply h0; rw [absValue_eq, hz, zero_mul]
  have hP : P ≠ 0 := fun hz => hmv (h1.zero_iff.mp hz)
  have hww : w = w' := by
    have := h2 hP
    rw [h2' hP] at this
    exact (Except.ok.inj this).symm
  subst hww
  obtain ⟨w', Y, w1, w2, w3, w4, w5, w6, w7, w8, w9⟩ := mantissa_ok h1 hP
  have hww : w = w' := by
    have := h2 hP
    rw [w1] at this
    exact (Except.ok.inj this).symm
  subst hww
  have hf : w.f ≠ 0 := by
    have : 0 < 2 ^ (T.W - 1) := by positivity
    omega
  have hKb := h1.K_bound hP h.mantLen
  have hEb := h.exp_bound
  have hEb' := h'.exp_bound
  refine ⟨w, K + n.expValue, w2, w3, ?_, ?_⟩
  · rw [krosh_eq_tail h4 rfl hf h.exponent (by dsimp only; omega)]
  · rw [krosh_eq_tail h4' rfl hf h'.exponent (by dsimp only; omega), hexp]

/-- **C76.** Of a long numeral only the first 23 (`double`) / 13 (`float`)
significant digits count; if the point comes before that, but after the 20th / 10th,
only the digits before the point.  The remaining digits may be changed, added or
removed after the point without any effect on the value, the status and the use of
the fallback, as long as the numeral stays a long one: some digit after the 19th / 9th
significant one is not zero. -/
theorem C76_late_digits (T : FloatType) (fb : Fallback) (errno : Nat) (mem mem' : List Nat) (str str' : Nat) (n n' : Numeral)
    (z : Nat) (D t t' : List (Fin 10))
    (h : NumeralAt mem str n) (h' : NumeralAt mem' str' n')
    (hdig : n.int ++ n.fracDigits = List.replicate z 0 ++ D ++ t)
    (hdig' : n'.int ++ n'.fracDigits = List.replicate z 0 ++ D ++ t')
    (hfirst : D.head? ≠ some 0)
    (hD : T.digits10 + 4 ≤ D.length ∨ (T.digits10 < D.length ∧ z + D.length = n.int.length))
    (hint : n.int.length = n'.int.length) (hexp : n.expValue = n'.expValue) (hsign : n.isNeg = n'.isNeg)
    (hlong : ∃ d ∈ D.drop T.digits10 ++ t, d ≠ 0) (hlong' : ∃ d ∈ D.drop T.digits10 ++ t', d ≠ 0) :
    ∃ r r', atof T fb errno mem str = .ok r ∧ atof T fb errno mem' str' = .ok r' ∧ r.fellBack = r'.fellBack ∧
      (r.fellBack = true → Delegated T fb errno mem str r ∧ Delegated T fb errno mem' str' r') ∧
      (r.fellBack = false → r'.value = r.value ∧ r'.status = r.status) := by
  obtain ⟨d, D', hDd, hd0⟩ : ∃ d D', D = d :: D' ∧ d ≠ 0 := by
    cases D with
    | nil => simp at hD
    | cons d D' => exact ⟨d, D', rfl, fun hc => hfirst (by rw [hc]; rfl)⟩
  rw [List.append_assoc] at hdig hdig'
  have hκ : T.digits10 ≤ D.length := by omega
  have hR : ∀ P K f P' K' f', ReadsExact T.digits10 n P K f → ReadsExact T.digits10 n' P' K' f' → P = P' ∧ K = K' ∧ f = f' := by
    intro P K f P' K' f' r r'
    obtain ⟨a1, a2, a3⟩ := late_reads r hdig hDd hd0 hκ (by push Not; exact hlong)
    obtain ⟨b1, b2, b3⟩ := late_reads r' hdig' hDd hd0 hκ (by push Not; exact hlong')
    refine ⟨by rw [a1, b1], by rw [a2, b2, hint], ?_⟩
    rw [a3, b3, ← hint]
    congr 2
    generalize T.digits10 = κ at *
    by_cases hc : n.int.length ≤ z + κ
    · rw [if_pos hc, if_pos hc, tail4_eq, tail4_eq]
      have h4 : 4 ≤ (D.drop κ).length := by rw [List.length_drop]; omega
      rw [List.append_assoc, List.append_assoc, List.take_append_of_le_length h4, List.take_append_of_le_length h4]
    · rw [if_neg hc, if_neg hc, tail4_eq, tail4_eq]
      rcases hD with hD | ⟨-, hD⟩
      · have h4 : 4 ≤ (D.drop κ).length := by rw [List.length_drop]; omega
        congr 1
        generalize n.int.length - z - κ = m
        have key : ∀ u : List (Fin 10), ((D.drop κ ++ u).take m ++ List.replicate 4 0).take 4 =
            ((D.drop κ).take m ++ List.replicate 4 0).take 4 := by
          intro u
          by_cases hm : m ≤ 4
          · rw [List.take_append_of_le_length (l₁ := D.drop κ) (by omega)]
          · rw [List.take_append_of_le_length (by rw [List.length_take, List.length_append]; omega), List.take_take,
              List.take_append_of_le_length (l₁ := D.drop κ) (by omega), List.take_append_of_le_length (by rw [List.length_take]; omega), List.take_take]
        rw [key, key]
      · rw [List.take_append_of_le_length (l₁ := D.drop κ) (by rw [List.length_drop]; omega),
          List.take_append_of_le_length (l₁ := D.drop κ) (by rw [List.length_drop]; omega)]
  have ha0 : n.absValue ≠ 0 := by
    unfold Numeral.absValue
    have : (digitsVal (n.int ++ n.fracDigits) : ℚ) ≠ 0 := by
      have h1 : digitsVal (n.int ++ n.fracDigits) ≠ 0 := fun hz =>
        digitsVal_ne_zero_of (l := n.int ++ n.fracDigits) (fun hall => hd0 (hall d (by rw [hdig, hDd]; simp))) hz
      exact_mod_cast h1
    exact mul_ne_zero this (zpow_ne_zero _ (by norm_num))
  have hp := text_pos h.valid
  have hp' := text_pos h'.valid
  obtain ⟨w, K, w1, w2, k1, k2⟩ := krosh_of_reads (T := T) h h' hR hexp ha0
  rcases kroshTail_total w1 w2 K with ⟨-, q⟩ | ⟨-, v, st, acc, tacc, q⟩
  · rw [q] at k1 k2
    refine ⟨_, _, atof_of_krosh k1 (by dsimp only; omega), atof_of_krosh k2 (by dsimp only; omega), rfl, ?_, ?_⟩
    · intro hf; cases hf
    · intro _; exact ⟨rfl, rfl⟩
  · rw [q] at k1 k2
    refine ⟨_, _, atof_of_krosh k1 (by dsimp only; omega), atof_of_krosh k2 (by dsimp only; omega), ?_⟩
    cases acc with
    | false => exact ⟨rfl, fun _ => ⟨delegated_of, delegated_of⟩, fun hf => by cases hf⟩
    | true => exact ⟨rfl, (fun hf => by cases hf), fun _ => ⟨by rw [hsign]; rfl, rfl⟩⟩

theorem numeralAt_plain {mem : List Nat} {n : Numeral} (hm : mem = n.text ++ [0]) (hx : n.exp = none)
    (hv : n.int ++ n.fracDigits ≠ []) (hl : (signText n.sign ++ n.mantText).length ≤ 2049) : NumeralAt mem 0 n := by
  rw [hm]
  exact numeralAt_cstr ⟨hv, by intro e he; rw [hx] at he; cases he⟩ hl (by intro e he; rw [hx] at he; cases he)

/-- "1.234567890123456" and "1.2345678901239" as `float`. -/
example (fb : Fallback) : ∃ r r', atof .float fb 0 (chars "1.234567890123456\x00") 0 = .ok r ∧
      atof .float fb 0 (chars "1.2345678901239\x00") 0 = .ok r' ∧ r.fellBack = r'.fellBack ∧
      (r.fellBack = true → Delegated .float fb 0 (chars "1.234567890123456\x00") 0 r ∧
        Delegated .float fb 0 (chars "1.2345678901239\x00") 0 r') ∧
      (r.fellBack = false → r'.value = r.value ∧ r'.status = r.status) :=
  C76_late_digits .float fb 0 _ _ 0 0 ⟨none, [1], some [2,3,4,5,6,7,8,9,0,1,2,3,4,5,6], none⟩
    ⟨none, [1], some [2,3,4,5,6,7,8,9,0,1,2,3,9], none⟩ 0 [1,2,3,4,5,6,7,8,9,0,1,2,3] [4,5,6] [9]
    (numeralAt_plain (by decide) rfl (by decide) (by decide))
    (numeralAt_plain (by decide) rfl (by decide) (by decide))
    rfl rfl (by decide) (Or.inl (by decide)) rfl rfl rfl ⟨1, by decide, by decide⟩ ⟨1, by decide, by decide⟩

/-- "100000000000000000001.99" and "100000000000000000001" as `double`: what
follows the point is ignored. -/
example (fb : Fallback) : ∃ r r', atof .double fb 0 (chars "100000000000000000001.99\x00") 0 = .ok r ∧
      atof .double fb 0 (chars "100000000000000000001\x00") 0 = .ok r' ∧ r.fellBack = r'.fellBack ∧
      (r.fellBack = true → Delegated .double fb 0 (chars "100000000000000000001.99\x00") 0 r ∧
        Delegated .double fb 0 (chars "100000000000000000001\x00") 0 r') ∧
      (r.fellBack = false → r'.value = r.value ∧ r'.status = r.status) :=
  C76_late_digits .double fb 0 _ _ 0 0 ⟨none, 1 :: (List.replicate 19 0 ++ [1]), some [9, 9], none⟩
    ⟨none, 1 :: (List.replicate 19 0 ++ [1]), none, none⟩ 0 (1 :: (List.replicate 19 0 ++ [1])) [9, 9] []
    (numeralAt_plain (by decide) rfl (by decide) (by decide))
    (numeralAt_plain (by decide) rfl (by decide) (by decide))
    rfl rfl (by decide) (Or.inr (by decide)) rfl rfl rfl ⟨1, by decide, by decide⟩ ⟨1, by decide, by decide⟩

end Floaxie
