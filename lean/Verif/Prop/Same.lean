import Verif.Prop.Total

/-!
# The value decides (C42, C43)
-/

namespace Floaxie

open Spec FloatType

theorem pow10_unique {P P' : Nat} {K K' : Int} (h : (P : ℚ) * 10 ^ K = P' * 10 ^ K') (hP : ¬ 10 ∣ P) (hP' : ¬ 10 ∣ P') :
    P = P' ∧ K = K' := by
  have key : ∀ {P P' : Nat} {K K' : Int}, (P : ℚ) * 10 ^ K = P' * 10 ^ K' → ¬ 10 ∣ P → K ≤ K' → K = K' ∧ P = P' := by
    intro P P' K K' h hP hle
    obtain ⟨d, hd⟩ : ∃ d : Nat, K' = K + d := ⟨(K' - K).toNat, by omega⟩
    rw [hd, zpow_add₀ (by norm_num), zpow_natCast] at h
    have h10 : (10 : ℚ) ^ K ≠ 0 := zpow_ne_zero _ (by norm_num)
    have h1 : (P : ℚ) = P' * 10 ^ d := by
      apply mul_right_cancel₀ h10; rw [h]; ring
    have h2 : P = P' * 10 ^ d := by exact_mod_cast h1
    have hd0 : d = 0 := by
      by_contra hc
      apply hP; rw [h2]
      exact Dvd.dvd.mul_left (dvd_pow_self 10 hc) P'
    subst hd0
    exact ⟨by omega, by simpa using h2⟩
  rcases le_total K K' with hle | hle
  · obtain ⟨a, b⟩ := key h hP hle; exact ⟨b, a⟩
  · obtain ⟨a, b⟩ := key h.symm hP' hle; exact ⟨b.symm, a.symm⟩

/-- Normalized representations are unique. -/
theorem normalized_unique {W : Nat} {w w' : DiyFp} (hW : 0 < W) (h : (w.f : ℚ) * 2 ^ w.e = w'.f * 2 ^ w'.e)
    (h1 : 2 ^ (W - 1) ≤ w.f) (h2 : w.f < 2 ^ W) (h1' : 2 ^ (W - 1) ≤ w'.f) (h2' : w'.f < 2 ^ W) : w = w' := by
  have key : ∀ {w w' : DiyFp}, (w.f : ℚ) * 2 ^ w.e = w'.f * 2 ^ w'.e → w.f < 2 ^ W → 2 ^ (W - 1) ≤ w'.f → w.e ≤ w'.e → w = w' := by
    intro w w' h hb ha hle
    obtain ⟨d, hd⟩ : ∃ d : Nat, w'.e = w.e + d := ⟨(w'.e - w.e).toNat, by omega⟩
    rw [hd, zpow_add₀ (by norm_num), zpow_natCast] at h
    have h20 : (2 : ℚ) ^ w.e ≠ 0 := zpow_ne_zero _ (by norm_num)
    have h1 : (w.f : ℚ) = w'.f * 2 ^ d := by
      apply mul_right_cancel₀ h20; rw [h]; ring
    have h2 : w.f = w'.f * 2 ^ d := by exact_mod_cast h1
    have hd0 : d = 0 := by
      by_contra hc
      have h3 : 2 ^ 1 ≤ 2 ^ d := Nat.pow_le_pow_right (by norm_num) (by omega)
      have h4 : 2 ^ (W - 1) * 2 ^ 1 ≤ w'.f * 2 ^ d := Nat.mul_le_mul ha h3
      rw [← pow_add, Nat.sub_add_cancel hW] at h4
      omega
    subst hd0
    obtain ⟨f, e⟩ := w
    obtain ⟨f', e'⟩ := w'
    simp at hd h2
    rw [hd, h2]
  rcases le_total w.e w'.e with hle | hle
  · exact key h h2 h1' hle
  · exact (key h.symm h2' h1 hle).symm

/-- For short numerals the conversion is a function of the value. -/
theorem krosh_value {T : FloatType} {mem mem' : List Nat} {str str' : Nat} {n n' : Numeral}
    (h : NumeralAt mem str n) (h' : NumeralAt mem' str' n') (hv : n.absValue = n'.absValue) (h0 : n.absValue ≠ 0)
    (hs : Short T.digits10 n.absValue) :
    ∃ (w : DiyFp) (K : Int), 2 ^ (T.W - 1) ≤ w.f ∧ w.f < 2 ^ T.W ∧
      krosh T mem str = kroshTail T w K (!n.isNeg) (str + n.text.length) ∧
      krosh T mem' str' = kroshTail T w K (!n'.isNeg) (str' + n'.text.length) := by
  obtain ⟨w, Y, K, w1, w2, -, -, y1, -, -, -, y2, -, y3, k⟩ := krosh_num (T := T) h h0
  obtain ⟨w', Y', K', w1', w2', -, -, y1', -, -, -, y2', -, y3', k'⟩ := krosh_num (T := T) h' (hv ▸ h0)
  obtain ⟨P, rfl, p⟩ := y3 hs
  obtain ⟨P', rfl, p'⟩ := y3' (hv ▸ hs)
  obtain ⟨rfl, rfl⟩ := pow10_unique (y1.symm.trans (hv.trans y1')) p p'
  have hw : w = w' := normalized_unique (by cases T <;> decide) ((y2 hs).symm.trans (y2' (hv ▸ hs))) w1 w2 w1' w2'
  subst hw
  exact ⟨w, K, w1, w2, k, k'⟩

/-- **C43.** Numerals with at most 19 (double) / 9 (float) significant digits
and the same value get the same answer, however they are written: same value,
status, and use of the fallback. -/
theorem C43_value_decides (T : FloatType) (fb : Fallback) (errno : Nat) (mem mem' : List Nat) (str str' : Nat) (n n' : Numeral)
    (h : NumeralAt mem str n) (h' : NumeralAt mem' str' n') (hv : n.value = n'.value) (hs : Short T.digits10 n.absValue)
    (h0 : n.value ≠ 0) :
    ∃ r r', atof T fb errno mem str = .ok r ∧ atof T fb errno mem' str' = .ok r' ∧ r.fellBack = r'.fellBack ∧
      (r.fellBack = true → Delegated T fb errno mem str r ∧ Delegated T fb errno mem' str' r') ∧
      (r.fellBack = false → r'.value = r.value ∧ r'.status = r.status) := by
  have ha : n.absValue = n'.absValue := by rw [← abs_value_num, ← abs_value_num, hv]
  have ha0 : n.absValue ≠ 0 := by rw [← abs_value_num]; exact abs_ne_zero.mpr h0
  have hpos : ∀ {m : Numeral}, 0 ≤ m.absValue := fun {m} => absValue_nonneg m
  have hneg : n.isNeg = n'.isNeg := by
    unfold Numeral.value at hv
    cases h1 : n.isNeg <;> cases h2 : n'.isNeg
    · rfl
    · rw [h1, h2] at hv; simp at hv; have := hpos (m := n'); have := hpos (m := n); exfalso; apply ha0; linarith
    · rw [h1, h2] at hv; simp at hv; have := hpos (m := n'); have := hpos (m := n); exfalso; apply ha0; linarith
    · rfl
  have hp := text_pos h.valid
  have hp' := text_pos h'.valid
  obtain ⟨w, K, w1, w2, k1, k2⟩ := krosh_value (T := T) h h' ha ha0 hs
  rcases kroshTail_total w1 w2 K with ⟨-, t⟩ | ⟨-, v, st, acc, tacc, t⟩
  · rw [t] at k1 k2
    refine ⟨_, _, atof_of_krosh k1 (by dsimp only; omega), atof_of_krosh k2 (by dsimp only; omega), rfl, ?_, ?_⟩
    · intro hf; cases hf
    · intro _; exact ⟨rfl, rfl⟩
  · rw [t] at k1 k2
    refine ⟨_, _, atof_of_krosh k1 (by dsimp only; omega), atof_of_krosh k2 (by dsimp only; omega), ?_⟩
    cases acc with
    | false => exact ⟨rfl, fun _ => ⟨delegated_of, delegated_of⟩, fun hf => by cases hf⟩
    | true => exact ⟨rfl, (fun hf => by cases hf), fun _ => ⟨by rw [hneg]; rfl, rfl⟩⟩

/-- "1.5e3" and "0.00150E+06". -/
def kilo1 : Numeral := ⟨none, [1], some [5], some ⟨false, none, [3]⟩⟩
def kilo2 : Numeral := ⟨none, [0], some [0, 0, 1, 5, 0], some ⟨true, some false, [0, 6]⟩⟩

theorem kilo_values : kilo1.value = 1500 ∧ kilo2.value = 1500 := by
  constructor
  · norm_num [kilo1, Numeral.value, Numeral.absValue, Numeral.isNeg, Numeral.fracDigits, Numeral.expValue, ExpPart.value, digitsVal]
    rw [if_neg (by decide)]; norm_num
  · norm_num [kilo2, Numeral.value, Numeral.absValue, Numeral.isNeg, Numeral.fracDigits, Numeral.expValue, ExpPart.value, digitsVal]

example (fb : Fallback) : ∃ r r', atof .float fb 0 (kilo1.text ++ [0]) 0 = .ok r ∧ atof .float fb 0 (kilo2.text ++ [0]) 0 = .ok r' ∧
    r.fellBack = r'.fellBack ∧
      (r.fellBack = true → Delegated .float fb 0 (kilo1.text ++ [0]) 0 r ∧ Delegated .float fb 0 (kilo2.text ++ [0]) 0 r') ∧
      (r.fellBack = false → r'.value = r.value ∧ r'.status = r.status) := by
  refine C43_value_decides .float fb 0 _ _ 0 0 kilo1 kilo2
    (numeralAt_cstr ⟨by decide, by intro e he; cases he; decide⟩ (by decide)
      (by intro e he; cases he; exact ⟨by decide, readable_of_lt (by decide)⟩))
    (numeralAt_cstr ⟨by decide, by intro e he; cases he; decide⟩ (by decide)
      (by intro e he; cases he; exact ⟨by decide, readable_of_lt (by decide)⟩))
    (by rw [kilo_values.1, kilo_values.2]) ⟨1500, 0, by decide, ?_⟩ (by rw [kilo_values.1]; norm_num)
  rw [← abs_value_num, kilo_values.1]; norm_num

/-! ## C42 -/

theorem withExponent_of {mem : List Nat} {str : Nat} {n : Numeral} {e : ExpPart} (h : NumeralAt mem str n) (he : n.exp = some e)
    (h0 : digitsVal (n.int ++ n.fracDigits) ≠ 0) : WithExponent mem str n ⟨e.sign, e.digits, none, none⟩ := by
  obtain ⟨c, R, hm, hend⟩ := h.text
  have hx : n.exp ≠ none := by rw [he]; simp
  refine ⟨⟨if e.upper then 'E'.toNat else 'e'.toNat, c :: R, by cases e.upper <;> simp, ?_, Or.inl ⟨?_, c, R, rfl, hend.notDigit, fun hc => absurd hc (hend.noDot hx)⟩⟩,
    h.mantLen, h0, ?_⟩
  · rw [hm]
    simp [Numeral.text, Numeral.expText, he, ExpPart.text, Numeral.mantText]
  · have := h.expLen e he
    simp [ExpPart.text, Numeral.mantText] at this ⊢
    omega
  · have := h.valid.2 e he
    simpa [Numeral.fracDigits] using this

/-- **C42.** Every exponent part of value below 10^4, with any sign, either case
of `e` and any leading zeros, is accepted: the call completes, and unless the
fallback is asked, the exponent part is consumed entirely.  (That it is read as
exactly the integer written is part of C20, C22, C36 and C43, which take
`Numeral.value` - and so `ExpPart.value` - as the number to be read.) -/
theorem C42_exponent (T : FloatType) (fb : Fallback) (errno : Nat) (n : Numeral) (e : ExpPart) (hv : n.Valid)
    (he : n.exp = some e) (h4 : digitsVal e.digits < 10 ^ 4) (hl : (signText n.sign ++ n.mantText).length ≤ 2049)
    (hle : e.text.length ≤ 2050) (h0 : n.value ≠ 0) :
    ∃ r, atof T fb errno (n.text ++ [0]) 0 = .ok r ∧
      (Delegated T fb errno (n.text ++ [0]) 0 r ∨ (r.fellBack = false ∧ r.strEnd = n.text.length)) := by
  have hn : NumeralAt (n.text ++ [0]) 0 n := numeralAt_cstr hv hl
    (fun e' he' => by rw [he] at he'; cases he'; exact ⟨hle, readable_of_lt h4⟩)
  obtain ⟨r, h1, h2⟩ := C28_consumes_plain T fb errno _ 0 n hn (Or.inr h0)
  refine ⟨r, h1, ?_⟩
  rcases h2 with h2 | ⟨h2, h3⟩
  · exact Or.inl h2
  · exact Or.inr ⟨h2, by rw [h3]; omega⟩

example (fb : Fallback) : ∃ r, atof .double fb 0 (kilo2.text ++ [0]) 0 = .ok r ∧
      (Delegated .double fb 0 (kilo2.text ++ [0]) 0 r ∨ (r.fellBack = false ∧ r.strEnd = kilo2.text.length)) :=
  C42_exponent .double fb 0 kilo2 ⟨true, some false, [0, 6]⟩ ⟨by decide, by intro e he; cases he; decide⟩ rfl (by decide) (by decide)
    (by decide) (by rw [kilo_values.2]; norm_num)

/-- **C42, the integer read.** The exponent reader, put on an exponent part of value
below 10^4 (any sign, either case of `e`, leading zeros), yields exactly the integer
written and stops right behind its digits, if neither a digit nor a point follows. -/
theorem C42_reads (mem : List Nat) (str c : Nat) (e : ExpPart) (R : List Nat) (hm : mem.drop str = e.text ++ c :: R)
    (hne : e.digits ≠ []) (h4 : digitsVal e.digits < 10 ^ 4) (hl : e.text.length ≤ 2050)
    (hc : ¬ ('0'.toNat ≤ c ∧ c ≤ '9'.toNat)) (hdot : c ≠ '.'.toNat) :
    parseExponent mem str = .ok { value := e.value, strEnd := str + e.text.length } :=
  parseExponent_ok hm hne (readable_of_lt h4) hc hdot hl

/-- `E-0072` before a comma is -72. -/
example : parseExponent (chars "5E-0072," ++ [0]) 1 = .ok { value := -72, strEnd := 7 } :=
  C42_reads _ 1 ','.toNat ⟨true, some true, [0, 0, 7, 2]⟩ [0] rfl (by decide) (by decide) (by decide) (by decide) (by decide)

/-- **C42, what follows the exponent.** The exponent reader accepts a point and
further digits after the exponent digits: unless that is undefined (C31), they
are consumed and ignored, value and status being those of the numeral without
them. -/
theorem C42_point_swallowed (T : FloatType) (fb : Fallback) (errno : Nat) (mem mem' : List Nat) (str str' : Nat) (n x : Numeral)
    (up : Bool) (hm : Nul mem str) (hx : WithExponent mem str n x) (hf : ¬ ExpFault x.int x.fracDigits)
    (h' : NumeralAt mem' str' { n with exp := some ⟨up, x.sign, x.int⟩ }) :
    ∃ r r', atof T fb errno mem str = .ok r ∧ atof T fb errno mem' str' = .ok r' ∧ r.fellBack = r'.fellBack ∧
      (r.fellBack = false → r'.value = r.value ∧ r'.status = r.status ∧
        r.strEnd = str + (signText n.sign ++ n.mantText).length + 1 + min (signText x.sign ++ x.mantText).length 2049 ∧
        r'.strEnd = str' + (signText n.sign ++ n.mantText).length + 1 + (signText x.sign).length + x.int.length) := by
  set n' : Numeral := { n with exp := some ⟨up, x.sign, x.int⟩ } with hn'
  have hread := h'.exp _ rfl
  have h0 : digitsVal (n'.int ++ n'.fracDigits) ≠ 0 := hx.nonzero
  have ha0 : n'.absValue ≠ 0 := by
    unfold Numeral.absValue
    have : (digitsVal (n'.int ++ n'.fracDigits) : ℚ) ≠ 0 := by exact_mod_cast h0
    exact mul_ne_zero this (zpow_ne_zero _ (by norm_num))
  obtain ⟨c, R, dp, frac, g1, g2, g3, g4, g5, g6, g7⟩ := withExponent_digits hx hm
  have hk : 0 ≤ dp.K ∧ dp.K ≤ 3 := by
    by_contra hc; exact hf ((expFault_iff g4).mp hc)
  have hv := exp_value g4 hk hread.1
  obtain ⟨w, K, w1, w2, ⟨P, K0, fr, r1, r2, r3, r4⟩, hkr⟩ := (krosh_exp (T := T) g1 g2 hx.nonzero hx.len g3 g5).2 hk
    (by have := hread.1; dsimp only at this; omega)
  rw [hv, g6] at r4
  -- the plain numeral
  obtain ⟨c', R', hm', he', hd'⟩ := h'.scan
  obtain ⟨P', K', frac', w', q1, q2, q3, q4, q5⟩ := parseMantissa_num (T := T) hm' he' h'.mantLen
  obtain ⟨e1, e2, e3⟩ := readsExact_unique (n := n) (n' := n) r1 (show ReadsExact T.digits10 n P' K' frac' from q2) ⟨rfl, rfl, rfl⟩
  subst e1 e2 e3
  have hw : w' = w := by
    have := q3 r2
    rw [r3] at this
    exact (Except.ok.inj this).symm
  subst hw
  have hf0 : w'.f ≠ 0 := by
    have : 0 < 2 ^ (T.W - 1) := by positivity
    omega
  have hKb := q1.K_bound r2 h'.mantLen
  have hEb := h'.exp_bound
  have hkr' := krosh_eq_tail q5 rfl hf0 h'.exponent (by dsimp only; omega)
  dsimp only at hkr'
  have hKK : K0 + n'.expValue = K := by
    rw [r4]
    show K0 + ExpPart.value ⟨up, x.sign, x.int⟩ = _
    unfold ExpPart.value Numeral.isNeg
    dsimp only
    cases x.sign with
    | none => rfl
    | some b => cases b <;> rfl
  rw [hKK] at hkr'
  have hnn : n'.isNeg = n.isNeg := rfl
  rw [hnn] at hkr'
  have hp' := text_pos h'.valid
  have hlen : n'.text.length = (signText n.sign ++ n.mantText).length + 1 + (signText x.sign).length + x.int.length := by
    rw [scan_split]
    simp [hn', scanText, Numeral.expText, ExpPart.text, Numeral.mantText]
    omega
  have hmin : 0 ≤ min (scanText x).length 2049 := by omega
  have hs1 : dp.strEnd ≠ str := by rw [g7]; omega
  rcases kroshTail_total w1 w2 K with ⟨-, t⟩ | ⟨-, v, st, acc, tacc, t⟩
  · rw [t] at hkr hkr'
    refine ⟨_, _, atof_of_krosh hkr hs1, atof_of_krosh hkr' (by dsimp only; omega), rfl, fun _ => ⟨rfl, rfl, g7, ?_⟩⟩
    show str' + n'.text.length = _
    omega
  · rw [t] at hkr hkr'
    refine ⟨_, _, atof_of_krosh hkr hs1, atof_of_krosh hkr' (by dsimp only; omega), ?_⟩
    cases acc with
    | false => exact ⟨rfl, fun hf => by cases hf⟩
    | true =>
      refine ⟨rfl, fun _ => ⟨rfl, rfl, g7, ?_⟩⟩
      show str' + n'.text.length = _
      omega

/-- "1.5e3.00x" is read like "1.5e3", but eight characters are consumed. -/
example (fb : Fallback) : ∃ r, atof .double fb 0 (chars "1.5e3.00x\x00") 0 = .ok r ∧ (r.fellBack = false → r.strEnd = 8) := by
  obtain ⟨r, r', h1, -, -, h2⟩ := C42_point_swallowed .double fb 0 (chars "1.5e3.00x\x00") (kilo1.text ++ [0]) 0 0 ⟨none, [1], some [5], none⟩
    ⟨none, [3], some [0, 0], none⟩ false ⟨9, by decide, by decide⟩
    ⟨⟨'e'.toNat, [120, 0], Or.inl rfl, by decide, Or.inl ⟨by decide, 120, [0], rfl, by decide, by decide⟩⟩, by decide, by decide, by decide⟩
    (by unfold ExpFault; decide)
    (numeralAt_cstr (n := kilo1) ⟨by decide, by intro e he; cases he; decide⟩ (by decide)
      (by intro e he; cases he; exact ⟨by decide, readable_of_lt (by decide)⟩))
  exact ⟨r, h1, fun hf => (h2 hf).2.2.1⟩

end Floaxie
