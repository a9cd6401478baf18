import Verif.Proof.Special
import Verif.Prop.Same

/-!
# C32 (no conversion), C33 (words), C44 (exponents without digits)
-/

namespace Floaxie

open FloatType Spec

/-! ## What `parse_digits` sees -/

theorem scan_sign {T : FloatType} {mem : List Nat} {str : Nat} {s : Option Bool} {t : List Nat}
    (hm : mem.drop str = signText s ++ t) :
    ∃ st1, Inv T.digits10 mem str ⟨s, [], none, none⟩ st1 ∧ st1.pos = (signText s).length ∧
      (∀ fuel, parseLoop T mem str (fuel + (signText s).length) PState.init = parseLoop T mem str fuel st1) := by
  have h0 := inv_init T.digits10 mem str
  cases s with
  | none => exact ⟨_, h0, rfl, fun fuel => rfl⟩
  | some b =>
    have hget : mem[str + PState.init.pos]? = some (if b then '-'.toNat else '+'.toNat) := by
      apply get_of_drop (r := t)
      show mem.drop str = _
      rw [hm]
      cases b <;> simp [signText]
    obtain ⟨st1, h1, h2⟩ := step_sign h0 rfl hget
    have h3 : st1.pos = (signText (some b)).length := by rw [h2.pos]; simp [scanText, Numeral.mantText]
    refine ⟨st1, h2, h3, fun fuel => ?_⟩
    have : (signText (some b)).length = 1 := by cases b <;> rfl
    rw [this]
    exact loop_step rfl h1

theorem nul_after {mem : List Nat} {str : Nat} {s : Option Bool} {c : Nat} {R : List Nat} (hn : Nul mem str)
    (hm : mem.drop str = signText s ++ c :: R) (hc : c ≠ 0) : Nul mem (str + (signText s).length + 1) := by
  have h1 := hn.skip (t := signText s) (by rw [← List.drop_drop, hm, List.drop_left]) (by
    intro x hx
    exact scanText_ne_zero ⟨s, [], none, none⟩ x (by simpa [scanText, Numeral.mantText] using hx))
  exact h1.next (get_of_drop (r := R) (by rw [← List.drop_drop, hm, List.drop_left])) hc

theorem parseDigits_word {T : FloatType} {mem : List Nat} {str : Nat} {s : Option Bool} {c : Nat} {R : List Nat} {isNan : Bool} {eaten : Nat}
    (hn : Nul mem str) (hm : mem.drop str = signText s ++ c :: R)
    (hc : if isNan then c = 'n'.toNat ∨ c = 'N'.toNat else c = 'i'.toNat ∨ c = 'I'.toNat)
    (he : (if isNan then eatNan mem (str + (signText s).length + 1) else eatInf mem (str + (signText s).length + 1)) = .ok eaten) :
    parseDigits T mem str = .ok ⟨0, 0, str + (signText s).length + 1 + eaten, 0,
      if eaten ≠ 0 then (if isNan then .nan else .inf) else .no, decide (s ≠ some true)⟩ := by
  obtain ⟨st, hi, hp, hl⟩ := scan_sign (T := T) hm
  have hget : mem[str + st.pos]? = some c := by
    apply get_of_drop (r := R); rw [hp, ← List.drop_drop, hm, List.drop_left]
  have hsl : (signText s).length ≤ 1 := by
    cases s with
    | none => decide
    | some b => cases b <;> decide
  have hstop : st.stop = false := by rw [hi.stop]; simp; omega
  have hnul : Nul mem (str + (signText s).length + 1) := nul_after hn hm (by
    rintro rfl; revert hc; cases isNan <;> decide)
  have hW : WordAt T mem str s isNan eaten st := by
    refine ⟨hi, ⟨c, hget, hc⟩, by rw [hp]; exact he, ?_⟩
    rw [hp]
    cases isNan with
    | true =>
      simp only [if_true] at he
      obtain ⟨k, k1, k2⟩ := eatNan_ok hnul
      rw [he] at k1; cases k1; exact k2
    | false =>
      simp only [Bool.false_eq_true, if_false] at he
      obtain ⟨k, k1, k2⟩ := eatInf_ok hnul
      rw [he] at k1; cases k1; exact k2
  have hstep := step_word hW
  have hE : st.digits = [] ∧ st.powGain = 0 ∧ st.fracCount = 0 ∧ st.frac = 0 := by
    rcases hi.core with ⟨e1, e2, e3, e4, e5, e6, e7⟩ | ⟨z, ds, tail, hN, -⟩
    · exact ⟨e2, e4, e5, e7⟩
    · exfalso
      obtain ⟨d, ds', hd, -⟩ := hN.head
      have := hN.split
      simp [allDigits, Numeral.fracDigits, hd] at this
  obtain ⟨e1, e2, e3, e4⟩ := hE
  unfold parseDigits
  rw [show maximumOffset + 3 = ((2051 - (signText s).length - 1) + 1) + (signText s).length by unfold maximumOffset; omega,
    hl, loop_step hstop hstep, loop_stop T mem str _ _ rfl (by omega), ok_bind]
  unfold wordState
  dsimp only
  rw [e1, e2, e3, e4, hi.sign, hp]
  rw [show str + ((signText s).length + (eaten + 1) + 1 - 1) = str + (signText s).length + 1 + eaten by omega]
  rfl

theorem longest_unique {b b' : Bool} {w w' text : List Nat} (h : LongestWord b w text) (h' : LongestWord b' w' text) :
    w = w' := by
  have h1 := h.longest _ _ h'.word h'.here
  have h2 := h'.longest _ _ h.word h.here
  obtain ⟨q, hq⟩ := h.here
  obtain ⟨q', hq'⟩ := h'.here
  exact (List.append_inj (hq.trans hq'.symm) (by omega)).1

theorem word_start {b : Bool} {w text : List Nat} (h : Word b w) (hp : w <+: text) :
    ∃ c R, text = c :: R ∧ (if b then c = 'n'.toNat ∨ c = 'N'.toNat else c = 'i'.toNat ∨ c = 'I'.toNat) := by
  obtain ⟨q, rfl⟩ := hp
  cases h with
  | nan t ht =>
    obtain ⟨a, b, c, rfl, h1, -⟩ := spells_nan.mp ht
    exact ⟨a, _, rfl, by simpa using h1⟩
  | nanSeq t u ht _ =>
    obtain ⟨a, b, c, rfl, h1, -⟩ := spells_nan.mp ht
    exact ⟨a, _, rfl, by simpa using h1⟩
  | inf t ht =>
    obtain ⟨a, b, c, rfl, h1, -⟩ := spells_inf.mp ht
    exact ⟨a, _, rfl, by simpa using h1⟩
  | infinity t ht =>
    obtain ⟨a, b, c, d, s, rfl, h1, -⟩ := spells_infinity.mp ht
    exact ⟨a, _, rfl, by simpa using h1⟩

theorem parseDigits_longest {T : FloatType} {mem : List Nat} {str : Nat} {s : Option Bool} {isNan : Bool} {w text : List Nat}
    (hn : Nul mem str) (hm : mem.drop str = signText s ++ text) (hw : LongestWord isNan w text) :
    parseDigits T mem str = .ok ⟨0, 0, str + (signText s).length + w.length, 0,
      if isNan then .nan else .inf, decide (s ≠ some true)⟩ := by
  obtain ⟨c, R, rfl, hc⟩ := word_start hw.word hw.here
  have hnul := nul_after hn hm (by rintro rfl; revert hc; cases isNan <;> decide)
  have hR : R = mem.drop (str + (signText s).length + 1) := by
    rw [← List.drop_drop, ← List.drop_drop, hm, List.drop_left]; rfl
  cases isNan with
  | true =>
    simp only [if_true] at hc
    rcases eatNan_spec hc hnul with ⟨w', h1, h2, h3⟩ | ⟨h1, -⟩
    · rw [← hR] at h1
      obtain rfl := longest_unique h1 hw
      rw [parseDigits_word (isNan := true) (eaten := w'.length - 1) hn hm (by simpa using hc) (by simpa using h2)]
      rw [if_pos (by omega), show str + (signText s).length + 1 + (w'.length - 1) = str + (signText s).length + w'.length by omega]
    · rw [← hR] at h1
      exact absurd hw.here (h1 _ _ hw.word)
  | false =>
    simp only [Bool.false_eq_true, if_false] at hc
    rcases eatInf_spec hc hnul with ⟨w', h1, h2, h3⟩ | ⟨h1, -⟩
    · rw [← hR] at h1
      obtain rfl := longest_unique h1 hw
      rw [parseDigits_word (isNan := false) (eaten := w'.length - 1) hn hm (by simpa using hc) (by simpa using h2)]
      rw [if_pos (by omega), show str + (signText s).length + 1 + (w'.length - 1) = str + (signText s).length + w'.length by omega]
    · rw [← hR] at h1
      exact absurd hw.here (h1 _ _ hw.word)

theorem parseDigits_noNumber {T : FloatType} {mem : List Nat} {str : Nat} {s : Option Bool} {k : Nat}
    (hn : Nul mem str) (h : NoNumber (mem.drop str) s k) :
    parseDigits T mem str = .ok ⟨0, 0, str + k, 0, .no, decide (s ≠ some true)⟩ := by
  generalize ht : mem.drop str = text at h
  cases h with
  | bare _ dot c R h1 h2 h3 =>
    set n : Numeral := ⟨s, [], if dot then some [] else none, none⟩ with hnn
    have hsc : scanText n = signText s ++ dotText dot := by
      cases dot <;> simp [hnn, scanText, Numeral.mantText, dotText]
    have hd : allDigits n = [] := by cases dot <;> simp [hnn, allDigits, Numeral.fracDigits]
    have hend : Ender n c := by
      refine ⟨h1, ?_, ?_, ?_⟩
      · intro hc
        cases dot with
        | true => rfl
        | false => exact absurd hc (h2 rfl).1
      · intro hc he
        rw [hsc, List.append_eq_nil_iff] at he
        have hs : s = none := by
          cases s with
          | none => rfl
          | some b => cases b <;> simp [signText] at he
        have hdot : dot = false := by
          cases dot with
          | false => rfl
          | true => simp [dotText] at he
        have := h3 hs hdot
        tauto
      · intro hc
        cases dot with
        | true => exact Or.inr rfl
        | false => exact absurd hc (h2 rfl).2
    have hsl : (scanText n).length ≤ 2 := by
      rw [hsc]
      cases s with
      | none => cases dot <;> decide
      | some b => cases b <;> cases dot <;> decide
    obtain ⟨P, K, frac, g1, -, g2⟩ := parseDigits_num (T := T) (n := n) (c := c) (R := R) (by rw [ht, hsc, List.append_assoc]) hend (by omega)
    rw [g2]
    have hz : P = 0 ∧ K = 0 ∧ frac = 0 := by
      rcases g1 with ⟨-, a, b, c⟩ | ⟨z, ds, tail, g, ⟨d, ds', hds, -⟩, -⟩
      · exact ⟨a, b, c⟩
      · rw [hd, hds] at g; simp at g
    obtain ⟨rfl, rfl, rfl⟩ := hz
    rw [hsc, List.length_append, ← isNeg_sign]
  | half _ c R h1 h2 =>
    have hnul := nul_after hn ht (by rintro rfl; revert h1; unfold WordLetter; decide)
    have hR : R = mem.drop (str + (signText s).length + 1) := by
      rw [← List.drop_drop, ← List.drop_drop, ht, List.drop_left]; rfl
    rw [hR] at h2
    have hc : (c = 'n'.toNat ∨ c = 'N'.toNat) ∨ (c = 'i'.toNat ∨ c = 'I'.toNat) := by unfold WordLetter at h1; tauto
    rcases hc with hc | hc
    · rcases eatNan_spec hc hnul with ⟨w', g1, -⟩ | ⟨-, g2⟩
      · exact absurd g1.here (h2 _ _ g1.word)
      · rw [parseDigits_word (isNan := true) (eaten := 0) hn ht (by simpa using hc) (by simpa using g2)]
        rfl
    · rcases eatInf_spec hc hnul with ⟨w', g1, -⟩ | ⟨-, g2⟩
      · exact absurd g1.here (h2 _ _ g1.word)
      · rw [parseDigits_word (isNan := false) (eaten := 0) hn ht (by simpa using hc) (by simpa using g2)]
        rfl

/-! ## C33 -/

/-- **C33.** A word for NaN or infinity, in any capitalisation and with any sign:
the longest word is taken and consumed, and the result is a quiet NaN, or infinity, of
that sign, with status success, whatever follows. -/
theorem C33_words (T : FloatType) (fb : Fallback) (errno : Nat) (mem : List Nat) (str : Nat) (s : Option Bool) (isNan : Bool)
    (w text : List Nat) (hn : Nul mem str) (hm : mem.drop str = signText s ++ text) (hw : LongestWord isNan w text) :
    ∃ v, atof T fb errno mem str = .ok ⟨v, .success, str + (signText s).length + w.length, errno, false⟩ ∧
      (isNan = true → IsQuietNaN T v) ∧ (isNan = false → IsInf T v) ∧ signBit T v = if s = some true then 1 else 0 := by
  have hd := parseDigits_longest (T := T) hn hm hw
  have hlen : 0 < w.length := by
    obtain ⟨c, R, rfl, hc⟩ := word_start hw.word hw.here
    cases hw.word with
    | nan t ht => obtain ⟨a, b, c, rfl, -⟩ := spells_nan.mp ht; simp
    | nanSeq t u ht _ => simp
    | inf t ht => obtain ⟨a, b, c, rfl, -⟩ := spells_inf.mp ht; simp
    | infinity t ht => obtain ⟨a, b, c, d, s, rfl, -⟩ := spells_infinity.mp ht; simp
  have hk : krosh T mem str = .ok ⟨if s = some true then negBits T (if isNan then T.qnanBits else T.infBits) else (if isNan then T.qnanBits else T.infBits),
      str + (signText s).length + w.length, .success, true⟩ := by
    unfold krosh parseMantissa
    rw [hd, ok_bind]
    cases isNan <;> by_cases hs : s = some true <;> simp [hs, bind, Except.bind, pure, Except.pure]
  refine ⟨_, atof_of_krosh hk (by dsimp only; omega), ?_⟩
  dsimp only
  have key : ∀ (T : FloatType) (a b : Bool),
      let v := if b = true then negBits T (if a then T.qnanBits else T.infBits) else (if a then T.qnanBits else T.infBits)
      (a = true → IsQuietNaN T v) ∧ (a = false → IsInf T v) ∧ signBit T v = if b = true then 1 else 0 := by
    intro T a b
    unfold IsQuietNaN IsNaN IsInf
    cases T <;> cases a <;> cases b <;> decide
  have := key T isNan (decide (s = some true))
  simpa only [decide_eq_true_eq] using this

/-- A NaN word with a character sequence, followed by other text. -/
theorem word_sample : LongestWord true (chars "NaN(x_1)") (chars "NaN(x_1))y" ++ [0]) := by
  rcases eatNan_spec (mem := chars "aN(x_1))y" ++ [0]) (i := 0) (c0 := 78) (by omega) ⟨9, by omega, by decide⟩ with ⟨w, h, h1, h2⟩ | ⟨-, h⟩
  · have hl : w.length = 8 := by
      have : eatNan (chars "aN(x_1))y" ++ [0]) 0 = .ok 7 := by decide
      rw [this, Except.ok.injEq] at h1; omega
    obtain ⟨q, hq⟩ := h.here
    have : w = chars "NaN(x_1)" := by
      have h3 : w = (w ++ q).take 8 := by rw [← hl, List.take_left]
      rw [h3, hq]; decide
    rw [this] at h
    exact h
  · exact absurd h (by decide)

example (fb : Fallback) : ∃ v, atof .double fb 0 (chars "-NaN(x_1))y" ++ [0]) 0 = .ok ⟨v, .success, 9, 0, false⟩ ∧ IsQuietNaN .double v ∧ signBit .double v = 1 := by
  obtain ⟨v, h1, h2, -, h3⟩ := C33_words .double fb 0 (chars "-NaN(x_1))y" ++ [0]) 0 (some true) true _ _ ⟨11, by decide, by decide⟩ rfl word_sample
  exact ⟨v, h1, h2 rfl, h3⟩

/-! ## C32 -/

/-- **C32.** A string that starts neither with a number nor with a word: zero,
status success, no fallback.  But the end pointer is not always at the start: it
is after the sign, point or word letter the string starts with, and a '-' makes
the zero negative. -/
theorem C32_no_number (T : FloatType) (fb : Fallback) (errno : Nat) (mem : List Nat) (str : Nat) (s : Option Bool) (k : Nat)
    (hn : Nul mem str) (h : NoNumber (mem.drop str) s k) :
    atof T fb errno mem str = .ok ⟨if s = some true then neg T 0 else 0, .success, str + k, errno, false⟩ := by
  have hd := parseDigits_noNumber (T := T) hn h
  have hk : krosh T mem str = .ok ⟨if s = some true then neg T 0 else 0, str + k, .success, true⟩ := by
    unfold krosh parseMantissa
    rw [hd, ok_bind, ← negBits_eq]
    by_cases hs : s = some true <;> simp [hs, bind, Except.bind, pure, Except.pure]
  by_cases hk0 : k = 0
  · subst hk0
    have hs : s = none := by
      generalize mem.drop str = text at h
      generalize hk : 0 = k at h
      cases h with
      | bare _ dot c R h1 h2 h3 =>
        cases s with
        | none => rfl
        | some b => cases b <;> simp [signText] at hk <;> omega
      | half _ c R h1 h2 => omega
    rw [hs] at hk ⊢
    unfold atof
    rw [hk, ok_bind]
    simp [pure, Except.pure]
  · rw [atof_of_krosh hk (by dsimp only; omega), if_pos rfl]

/-- The ideal claim - end pointer at the start, no sign - fails for "null",
"info", "-abc", "." and others. -/
theorem C32_refuted (fb : Fallback) :
    atof .double fb 0 (chars "null" ++ [0]) 0 = .ok ⟨0, .success, 1, 0, false⟩ ∧
    atof .double fb 0 (chars "item" ++ [0]) 0 = .ok ⟨0, .success, 1, 0, false⟩ ∧
    atof .double fb 0 (chars "-abc" ++ [0]) 0 = .ok ⟨2 ^ 63, .success, 1, 0, false⟩ ∧
    atof .double fb 0 (chars "-.n" ++ [0]) 0 = .ok ⟨2 ^ 63, .success, 2, 0, false⟩ ∧
    atof .double fb 0 (chars "." ++ [0]) 0 = .ok ⟨0, .success, 1, 0, false⟩ ∧
    atof .double fb 0 (chars " 12" ++ [0]) 0 = .ok ⟨0, .success, 0, 0, false⟩ := by
  have h : ∀ (s : String) (r : KroshResult), krosh .double (chars s ++ [0]) 0 = .ok r → r.isAccurate = true → r.strEnd ≠ 0 →
      atof .double fb 0 (chars s ++ [0]) 0 = .ok ⟨r.value, r.status, r.strEnd, 0, false⟩ := by
    intro s r h1 h2 h3
    rw [atof_of_krosh h1 h3, if_pos h2]
  refine ⟨h _ ⟨0, 1, .success, true⟩ (by decide +kernel) rfl (by decide), h _ ⟨0, 1, .success, true⟩ (by decide +kernel) rfl (by decide),
    h _ ⟨2 ^ 63, 1, .success, true⟩ (by decide +kernel) rfl (by decide), h _ ⟨2 ^ 63, 2, .success, true⟩ (by decide +kernel) rfl (by decide),
    h _ ⟨0, 1, .success, true⟩ (by decide +kernel) rfl (by decide), ?_⟩
  have e : List.drop 0 (chars " 12" ++ [0]) = signText none ++ (dotText false ++ 32 :: (chars "12" ++ [0])) := by decide
  exact C32_no_number .double fb 0 _ 0 none 0 ⟨3, by decide, by decide⟩ (e ▸ NoNumber.bare none false 32 (chars "12" ++ [0]) (by decide) (by unfold WordLetter; decide) (by decide))

/-- **C32, every string.** Every NUL-terminated string starts with a number, a
word, 2050 characters of a number, or with none of them. -/
theorem C32_every_string (mem : List Nat) (str : Nat) (hn : Nul mem str) : InputShape (mem.drop str) := by
  obtain ⟨r, -, h⟩ := parseDigits_total (T := .double) hn
  cases h with
  | num n P K frac c h1 h2 h3 h4 h5 h6 =>
    rw [h3, drop_of_get h4]
    by_cases hd : n.int ++ n.fracDigits = []
    · obtain ⟨s, i, f, e⟩ := n
      rw [List.append_eq_nil_iff] at hd
      obtain ⟨hi, hf⟩ := hd
      dsimp only at hi h1
      subst hi h1
      have : ∃ dot, f = if dot = true then some [] else none := by
        cases f with
        | none => exact ⟨false, rfl⟩
        | some f => simp only [Numeral.fracDigits, Option.getD_some] at hf; subst hf; exact ⟨true, rfl⟩
      obtain ⟨dot, rfl⟩ := this
      have hsc : scanText ⟨s, [], if dot = true then some [] else none, none⟩ = signText s ++ dotText dot := by
        cases dot <;> simp [scanText, Numeral.mantText, dotText]
      refine .nothing _ s _ (?_ : NoNumber _ s ((signText s).length + (dotText dot).length))
      rw [hsc, List.append_assoc]
      refine .bare s dot c _ h5.dig ?_ ?_
      · rintro rfl
        refine ⟨fun hc => ?_, fun hc => ?_⟩
        · have := h5.dot hc; simp at this
        · rcases h5.word hc with h | h <;> simp at h
      · rintro rfl rfl
        have := h5.sign
        simp only [hsc] at this
        refine ⟨fun hc => this (Or.inl hc) rfl, fun hc => this (Or.inr hc) rfl⟩
    · refine .number n c _ h1 hd h2 h5.dig (fun hc hf => ?_)
      have := h5.dot hc
      rw [hf] at this; cases this
  | limit n P K frac h1 h2 h3 h4 =>
    rw [h3]; exact .long n _ h1 h2
  | word s isNan eaten c h1 h2 h3 h4 h5 =>
    rw [drop_of_get h2] at h1
    rw [h1]
    have hnul := nul_after hn h1 (by rintro rfl; revert h3; cases isNan <;> decide)
    cases isNan with
    | true =>
      simp only [if_true] at h3
      rcases eatNan_spec h3 hnul with ⟨w, g1, -⟩ | ⟨g1, -⟩
      · exact .word s true w _ g1
      · exact .nothing _ _ _ (.half s c _ (by unfold WordLetter; tauto) g1)
    | false =>
      simp only [Bool.false_eq_true, if_false] at h3
      rcases eatInf_spec h3 hnul with ⟨w, g1, -⟩ | ⟨g1, -⟩
      · exact .word s false w _ g1
      · exact .nothing _ _ _ (.half s c _ (by unfold WordLetter; tauto) g1)

/-- **C32, when the end pointer stays at the start.** If the call completes
without the fallback, the end pointer is the start of the string if and only if
the first character is no digit, point, sign or letter `n`, `N`, `i`, `I`; the
result is then plain zero with status success.  In particular white space is not
skipped. -/
theorem C32_end_at_start_iff (T : FloatType) (fb : Fallback) (errno : Nat) (mem : List Nat) (str c : Nat) (r : AtofResult)
    (hn : Nul mem str) (hc : mem[str]? = some c) (h : atof T fb errno mem str = .ok r) (hf : r.fellBack = false) :
    (r.strEnd = str ↔ ¬ ('0'.toNat ≤ c ∧ c ≤ '9'.toNat) ∧ c ≠ '.'.toNat ∧ c ≠ '-'.toNat ∧ c ≠ '+'.toNat ∧ ¬ WordLetter c) ∧
    (r.strEnd = str → r.value = 0 ∧ r.status = .success) := by
  have main : r.strEnd = str ↔ ¬ ('0'.toNat ≤ c ∧ c ≤ '9'.toNat) ∧ c ≠ '.'.toNat ∧ c ≠ '-'.toNat ∧ c ≠ '+'.toNat ∧ ¬ WordLetter c := by
    constructor
    · intro he
      obtain ⟨dp, mp, m1, m2, m3, -, m5, m6, m7⟩ := parseMantissa_total (T := T) hn
      have hle : mp.strEnd ≤ str := by
        unfold atof krosh at h
        rw [m2, ok_bind] at h
        by_cases hz : mp.special = .no ∧ mp.value.f ≠ 0
        · rw [if_pos hz] at h
          have hnm : Nul mem mp.strEnd := by rw [m3]; exact (m1.nul hn).2
          rcases parseExponent_total hnm with ⟨ep, e1, e2, -⟩ | ⟨-, e1 | e1⟩
          · rw [e1, ok_bind] at h
            refine e2.trans ?_
            have hb : ∀ k : KroshResult, k.strEnd = ep.strEnd → (if k.strEnd ≠ str then
                if k.isAccurate = true then pure { value := k.value, status := k.status, strEnd := k.strEnd, errno := errno, fellBack := false }
                else pure { value := (fb mem str errno).value, status := checkErrno T (fb mem str errno).errno (fb mem str errno).value, strEnd := (fb mem str errno).strEnd, errno := (fb mem str errno).errno, fellBack := true }
              else pure { value := 0, status := .success, strEnd := k.strEnd, errno := errno, fellBack := false } : M AtofResult) = .ok r → ep.strEnd ≤ str := by
              intro k hk hr
              by_cases h1 : k.strEnd = str
              · omega
              · rw [if_pos h1] at hr
                by_cases h2 : k.isAccurate = true
                · rw [if_pos h2] at hr; cases hr; dsimp only at he; omega
                · rw [if_neg h2] at hr; cases hr; cases hf
            cases hkr : krosh T mem str with
            | error e =>
              unfold krosh at hkr
              rw [m2, ok_bind, if_pos hz, e1, ok_bind] at hkr
              rw [hkr] at h; cases h
            | ok k =>
              have hke : k.strEnd = ep.strEnd := by
                have hkr' := hkr
                unfold krosh at hkr'
                rw [m2, ok_bind, if_pos hz, e1, ok_bind] at hkr'
                cases hx : chkInt (mp.K + ep.value) with
                | error e => rw [hx] at hkr'; cases hkr'
                | ok K =>
                  have hb : -(2 ^ 31) ≤ mp.K + ep.value ∧ mp.K + ep.value < 2 ^ 31 := by
                    unfold chkInt at hx
                    by_contra hb
                    rw [if_neg hb] at hx; cases hx
                  have := krosh_eq_tail m2 hz.1 hz.2 e1 hb
                  rw [hkr] at this
                  rcases kroshTail_total (m6 hz).2.2.1 (m6 hz).2.2.2.1 (mp.K + ep.value) with ⟨-, t⟩ | ⟨-, v, st, acc, -, t⟩ <;>
                    · rw [t] at this; cases this; rfl
              unfold krosh at hkr
              rw [m2, ok_bind, if_pos hz, e1, ok_bind] at hkr
              rw [hkr, ok_bind] at h
              exact hb k hke h
          · rw [e1] at h; cases h
          · rw [e1] at h; cases h
        · rw [if_neg hz, pure_bind'] at h
          dsimp only at h
          by_contra hlt
          rw [if_pos (by omega), if_pos rfl] at h
          cases h; dsimp only at he; omega
      rw [m3] at hle
      cases m1 with
      | num n P K frac c' g1 g2 g3 g4 g5 g6 =>
        dsimp only at hle
        have hl0 : (scanText n).length = 0 := by omega
        rw [hl0, Nat.add_zero, hc] at g4
        cases g4
        have hs := List.length_eq_zero_iff.mp hl0
        obtain ⟨s1, s2, s3⟩ := scan_empty hs
        refine ⟨g5.dig, fun hd => ?_, fun hd => g5.sign (Or.inl hd) hs, fun hd => g5.sign (Or.inr hd) hs, fun hd => ?_⟩
        · have := g5.dot hd; rw [s3] at this; cases this
        · rcases g5.word hd with h | h
          · exact h s2
          · rw [s3] at h; cases h
      | limit n P K frac g1 g2 g3 g4 => dsimp only at hle; omega
      | word s isNan eaten c' g1 g2 g3 g4 g5 => dsimp only at hle; omega
    · rintro ⟨h1, h2, h3, h4, h5⟩
      have hN : NoNumber (mem.drop str) none 0 := by
        rw [drop_of_get hc]
        exact .bare none false c _ h1 (fun _ => ⟨h2, h5⟩) (fun _ _ => ⟨h3, h4⟩)
      rw [C32_no_number T fb errno mem str none 0 hn hN] at h
      cases h; rfl
  refine ⟨main, fun he => ?_⟩
  obtain ⟨h1, h2, h3, h4, h5⟩ := main.mp he
  have hN : NoNumber (mem.drop str) none 0 := by
    rw [drop_of_get hc]
    exact .bare none false c _ h1 (fun _ => ⟨h2, h5⟩) (fun _ _ => ⟨h3, h4⟩)
  rw [C32_no_number T fb errno mem str none 0 hn hN] at h
  cases h; exact ⟨rfl, rfl⟩

/-! ## C44 -/

/-- **C44.** A non-zero number followed by `e` or `E` and no exponent digits:
value, status and use of the fallback are as without the `e`.  But the end
pointer, unless given by the fallback, is not before the `e`: the `e` and all
that looks like the start of a number after it - sign, point, a letter or even a
whole word - are consumed. -/
theorem C44_no_exponent_digits (T : FloatType) (fb : Fallback) (errno : Nat) (mem mem' : List Nat) (str str' : Nat) (n : Numeral)
    (e : Nat) (Y : List Nat) (s : Option Bool) (k : Nat) (hn : Nul mem str) (he : e = 'e'.toNat ∨ e = 'E'.toNat)
    (hm : mem.drop str = n.text ++ e :: Y)
    (hY : NoNumber Y s k ∨ ∃ isNan w text, Y = signText s ++ text ∧ LongestWord isNan w text ∧ k = (signText s).length + w.length)
    (h' : NumeralAt mem' str' n) (hx : n.exp = none) (h0 : n.value ≠ 0) :
    ∃ r r', atof T fb errno mem str = .ok r ∧ atof T fb errno mem' str' = .ok r' ∧ r.fellBack = r'.fellBack ∧
      (r.fellBack = true → Delegated T fb errno mem str r ∧ Delegated T fb errno mem' str' r') ∧
      (r.fellBack = false → r'.value = r.value ∧ r'.status = r.status ∧
        r.strEnd = str + n.text.length + 1 + k ∧ r'.strEnd = str' + n.text.length) := by
  have htx : n.text = scanText n := by rw [scan_split]; simp [Numeral.expText, hx]
  have hm1 : mem.drop str = scanText n ++ e :: Y := by rw [hm, htx]
  have hg : mem[str + (scanText n).length]? = some e := by
    apply get_of_drop (r := Y)
    rw [← List.drop_drop, hm1, List.drop_left]
  have hm2 : mem.drop (str + (scanText n).length + 1) = Y := by
    rw [← List.drop_drop, ← List.drop_drop, hm1, List.drop_left]; rfl
  have hnul : Nul mem (str + (scanText n).length + 1) := by
    have := hn.skip (t := scanText n) (by rw [← List.drop_drop, hm1, List.drop_left]) (scanText_ne_zero n)
    exact this.next hg (by rintro rfl; revert he; decide)
  obtain ⟨sp, sg, hd⟩ : ∃ sp sg, parseDigits .float mem (str + (scanText n).length + 1) =
      .ok ⟨0, 0, str + (scanText n).length + 1 + k, 0, sp, sg⟩ := by
    rcases hY with hY | ⟨isNan, w, text, hY, hw, rfl⟩
    · exact ⟨_, _, parseDigits_noNumber hnul (hm2 ▸ hY)⟩
    · have hl := parseDigits_longest (T := .float) hnul (hm2.trans hY) hw
      rw [Nat.add_assoc (str + (scanText n).length + 1)] at hl
      exact ⟨_, _, hl⟩
  have ha0 : n.absValue ≠ 0 := by
    intro hz; apply h0; unfold Numeral.value; rw [hz]; simp
  have hd0 : digitsVal (allDigits n) ≠ 0 := by
    intro hz; apply ha0; unfold Numeral.absValue
    rw [show digitsVal (n.int ++ n.fracDigits) = 0 from hz]; simp
  obtain ⟨w, K, w1, w2, ⟨P, K0, fr, r1, r2, r3, r4⟩, hkr⟩ := (krosh_exp (T := T) hm1 he hd0 h'.mantLen hd
    ⟨by dsimp only; norm_num, by dsimp only; norm_num⟩).2 ⟨le_rfl, by dsimp only; norm_num⟩ (by dsimp only; norm_num)
  have hKK : K = K0 := by rw [r4]; cases sg <;> simp
  subst hKK
  obtain ⟨c', R', hm', he', hd'⟩ := h'.scan
  obtain ⟨P', K', frac', w', q1, q2, q3, q4, q5⟩ := parseMantissa_num (T := T) hm' he' h'.mantLen
  obtain ⟨e1, e2, e3⟩ := readsExact_unique (n := n) (n' := n) r1 q2 ⟨rfl, rfl, rfl⟩
  subst e1 e2 e3
  have hw : w' = w := by
    have := q3 r2
    rw [r3] at this
    exact (Except.ok.inj this).symm
  subst hw
  have hf0 : w'.f ≠ 0 := by
    have : 0 < 2 ^ (T.W - 1) := by positivity
    omega
  have hKb := q1.K_bound r2 h'.mantLen
  have hEb := h'.exp_bound
  have hkr' := krosh_eq_tail q5 rfl hf0 h'.exponent (by dsimp only; omega)
  have hev : n.expValue = 0 := by unfold Numeral.expValue; rw [hx]
  dsimp only at hkr'
  rw [hev, add_zero] at hkr'
  have hp' := text_pos h'.valid
  rcases kroshTail_total w1 w2 K with ⟨-, t⟩ | ⟨-, v, st, acc, tacc, t⟩
  · rw [t] at hkr hkr'
    refine ⟨_, _, atof_of_krosh hkr (by dsimp only; omega), atof_of_krosh hkr' (by dsimp only; omega), rfl, ?_, ?_⟩
    · intro hf; cases hf
    · intro _; exact ⟨rfl, rfl, by rw [htx]; rfl, rfl⟩
  · rw [t] at hkr hkr'
    refine ⟨_, _, atof_of_krosh hkr (by dsimp only; omega), atof_of_krosh hkr' (by dsimp only; omega), ?_⟩
    cases acc with
    | false => exact ⟨rfl, fun _ => ⟨delegated_of, delegated_of⟩, fun hf => by cases hf⟩
    | true => exact ⟨rfl, (fun hf => by cases hf), fun _ => ⟨rfl, rfl, by rw [htx]; rfl, rfl⟩⟩

/-- "12em" is read as 12, but three characters are consumed: the ideal claim that
only the number is consumed fails, as for "1e", "1e+" and "1einf". -/
theorem C44_refuted (fb : Fallback) :
    atof .float fb 0 (chars "12em" ++ [0]) 0 = .ok ⟨0x41400000, .success, 3, 0, false⟩ ∧
    atof .float fb 0 (chars "1e" ++ [0]) 0 = .ok ⟨0x3f800000, .success, 2, 0, false⟩ ∧
    atof .float fb 0 (chars "1e+" ++ [0]) 0 = .ok ⟨0x3f800000, .success, 3, 0, false⟩ ∧
    atof .float fb 0 (chars "1einf" ++ [0]) 0 = .ok ⟨0x3f800000, .success, 5, 0, false⟩ := by
  have h : ∀ (s : String) (r : KroshResult), krosh .float (chars s ++ [0]) 0 = .ok r → r.isAccurate = true → r.strEnd ≠ 0 →
      atof .float fb 0 (chars s ++ [0]) 0 = .ok ⟨r.value, r.status, r.strEnd, 0, false⟩ := by
    intro s r h1 h2 h3
    rw [atof_of_krosh h1 h3, if_pos h2]
  exact ⟨h _ ⟨0x41400000, 3, .success, true⟩ (by decide +kernel) rfl (by decide), h _ ⟨0x3f800000, 2, .success, true⟩ (by decide +kernel) rfl (by decide),
    h _ ⟨0x3f800000, 3, .success, true⟩ (by decide +kernel) rfl (by decide), h _ ⟨0x3f800000, 5, .success, true⟩ (by decide +kernel) rfl (by decide)⟩

example (fb : Fallback) : ∃ r r', atof .float fb 0 (chars "7E-.x" ++ [0]) 0 = .ok r ∧ atof .float fb 0 (chars "7" ++ [0]) 0 = .ok r' ∧
    r.fellBack = r'.fellBack ∧ (r.fellBack = false → r'.value = r.value ∧ r.strEnd = 4) := by
  have hn : NumeralAt (chars "7" ++ [0]) 0 ⟨none, [7], none, none⟩ := by
    have := numeralAt_cstr (n := ⟨none, [7], none, none⟩) ⟨by decide, by intro e he; cases he⟩ (by decide) (by intro e he; cases he)
    have e : chars "7" ++ [0] = (⟨none, [7], none, none⟩ : Numeral).text ++ [0] := by decide
    rw [e]; exact this
  obtain ⟨r, r', h1, h2, h3, -, h4⟩ := C44_no_exponent_digits .float fb 0 (chars "7E-.x" ++ [0]) (chars "7" ++ [0]) 0 0 ⟨none, [7], none, none⟩
    'E'.toNat (chars "-.x" ++ [0]) (some true) 2 ⟨5, by decide, by decide⟩ (Or.inr rfl) (by decide)
    (Or.inl (show NoNumber (signText (some true) ++ (dotText true ++ 120 :: [0])) (some true) ((signText (some true)).length + (dotText true).length) from
      .bare _ _ _ _ (by decide) (by unfold WordLetter; decide) (by decide)))
    hn rfl (by norm_num [Numeral.value, Numeral.absValue, Numeral.isNeg, Numeral.fracDigits, Numeral.expValue, digitsVal])
  exact ⟨r, r', h1, h2, h3, fun hf => ⟨(h4 hf).1, (h4 hf).2.2.1⟩⟩

end Floaxie
