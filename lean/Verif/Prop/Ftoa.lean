import Verif.Spec.Text
import Verif.Proof.Ftoa
import Verif.Proof.IeeeMore
import Verif.Proof.NumeralText

/-!
# Properties of `ftoa` and `to_string` (C01 - C12)
-/

namespace Floaxie

open Spec FloatType

/-- `ftoa(v, buffer)`, called with any buffer of at least `max_buffer_size`
characters, returns normally, returns the length of `s`, and leaves the C string
`s` in the buffer. -/
def Prints (T : FloatType) (bits : Nat) (s : List Nat) : Prop :=
  ∀ buf : List Nat, maxBufferSize T ≤ buf.length →
    ∃ buf', ftoa T bits buf = .ok (buf', s.length) ∧ cstr buf' = s

theorem cstr_append {s : List Nat} (h : ∀ c ∈ s, c ≠ 0) (r : List Nat) : cstr (s ++ 0 :: r) = s := by
  unfold cstr
  rw [List.takeWhile_append_of_pos (by intro c hc; simpa using h c hc)]
  simp

theorem prints_of_ok {T : FloatType} {bits : Nat} {s : List Nat} (h0 : ∀ c ∈ s, c ≠ 0)
    (hl : s.length + 1 ≤ maxBufferSize T)
    (h : ∀ buf : List Nat, s.length + 1 ≤ buf.length →
        ftoa T bits buf = .ok (s ++ 0 :: buf.drop (s.length + 1), s.length)) :
    Prints T bits s := by
  intro buf hb
  exact ⟨_, h buf (by omega), cstr_append h0 _⟩

/-- The printed text is a function of the value. -/
theorem prints_unique {T : FloatType} {bits : Nat} {s t : List Nat} (h1 : Prints T bits s)
    (h2 : Prints T bits t) : s = t := by
  obtain ⟨b1, e1, c1⟩ := h1 (List.replicate (maxBufferSize T) 0) (by simp)
  obtain ⟨b2, e2, c2⟩ := h2 (List.replicate (maxBufferSize T) 0) (by simp)
  rw [e1] at e2
  simp only [Except.ok.injEq, Prod.mk.injEq] at e2
  rw [← c1, ← c2, e2.1]

/-- The text of a concrete value, by running the model. -/
theorem prints_eval {T : FloatType} {bits : Nat} {s : List Nat} (hb : bits < 2 ^ T.W)
    (h : (toBasicString T bits).toOption = some s) : Prints T bits s := by
  obtain ⟨t, h1, h2, h3⟩ := ftoa_total T bits hb
  have : toBasicString T bits = .ok t := by
    unfold toBasicString
    rw [h3 _ (by simpa using h2), ok_bind]
    exact congrArg Except.ok (cstr_append h1 _)
  rw [this] at h
  cases h
  exact prints_of_ok h1 h2 h3

/-- Everything about finite non-zero values, from which the properties follow. -/
theorem ftoa_main'' (T : FloatType) (a : Nat) (ha : a < posInf T) (h0 : a ≠ 0) :
    ∃ (ds : List (Fin 10)) (k : Int), ds.length ≤ maxSigDigits T ∧
      (∃ h : ds ≠ [], ds.head h ≠ 0 ∧ ds.getLast h ≠ 0) ∧
      Identifies T (digitsVal ds * 10 ^ k) a ∧ k.natAbs ≤ 343 ∧ T.powLo ≤ k ∧ k ≤ T.powHi ∧
      (∀ rest : List Nat, ds.length ≤ rest.length →
        grisu2 T a rest 0 = .ok (ds.map digitChar ++ rest.drop ds.length, ds.length, k)) ∧
      ∀ (bits : Nat), bits < 2 ^ T.W → absPat T bits = a →
        Prints T bits (fmtNumeral (decide (signBit T bits = 1)) ds k).text := by
  obtain ⟨ds, k, h1, ⟨h2, h2', h2''⟩, h3, h4, h5, hg, h6⟩ := ftoa_finite T a ha h0
  have h1' : ds.length ≤ maxSigDigits T := by cases T <;> exact h1
  refine ⟨ds, k, h1', ⟨h2, h2', h2''⟩, h3, pow_range T h4 h5, h4, h5, hg, ?_⟩
  intro bits hb hab
  have := h6 bits hb hab
  rw [isNegative_eq hb] at this
  refine prints_of_ok (numeral_text_ne_zero _) ?_ this
  have := (fmtBody_len ds k h2).2
  rw [fmt_text, List.length_append]
  have : (if decide (signBit T bits = 1) = true then ['-'.toNat] else []).length ≤ 1 := by
    split_ifs <;> simp
  unfold maxBufferSize maxDigits halfDigits10
  cases T <;> simp only [digits10, maxSig] at * <;> omega

/-- The same without the digit generator and the upper bound of the exponent. -/
theorem ftoa_main' (T : FloatType) (a : Nat) (ha : a < posInf T) (h0 : a ≠ 0) :
    ∃ (ds : List (Fin 10)) (k : Int), ds.length ≤ maxSigDigits T ∧
      (∃ h : ds ≠ [], ds.head h ≠ 0 ∧ ds.getLast h ≠ 0) ∧
      Identifies T (digitsVal ds * 10 ^ k) a ∧ k.natAbs ≤ 343 ∧ T.powLo ≤ k ∧
      ∀ (bits : Nat), bits < 2 ^ T.W → absPat T bits = a →
        Prints T bits (fmtNumeral (decide (signBit T bits = 1)) ds k).text := by
  obtain ⟨ds, k, h1, h2, h3, h4, h4', -, -, h5⟩ := ftoa_main'' T a ha h0
  exact ⟨ds, k, h1, h2, h3, h4, h4', h5⟩

/-- The same without the lower bound of the exponent. -/
theorem ftoa_main (T : FloatType) (a : Nat) (ha : a < posInf T) (h0 : a ≠ 0) :
    ∃ (ds : List (Fin 10)) (k : Int), ds.length ≤ maxSigDigits T ∧
      (∃ h : ds ≠ [], ds.head h ≠ 0 ∧ ds.getLast h ≠ 0) ∧
      Identifies T (digitsVal ds * 10 ^ k) a ∧ k.natAbs ≤ 343 ∧
      ∀ (bits : Nat), bits < 2 ^ T.W → absPat T bits = a →
        Prints T bits (fmtNumeral (decide (signBit T bits = 1)) ds k).text := by
  obtain ⟨ds, k, h1, h2, h3, h4, -, h5⟩ := ftoa_main' T a ha h0
  exact ⟨ds, k, h1, h2, h3, h4, h5⟩

theorem abs_ne_zero_of_value {T : FloatType} {bits : Nat} (h0 : value T bits ≠ 0) :
    absPat T bits ≠ 0 := fun h => h0 (value_zero_iff.mpr h)

theorem identifies_signed {T : FloatType} {bits : Nat} {x : ℚ} (hb : IsFinite T bits)
    (h : Identifies T x (absPat T bits)) :
    Identifies T (if decide (signBit T bits = 1) = true then -x else x) bits := by
  have hW := two_W T
  obtain ⟨e, h01⟩ := pat_decomp hb.1
  rcases h01 with h1 | h1
  · rw [h1] at e ⊢
    simp only [Nat.zero_ne_one, decide_false, Bool.false_eq_true, if_false]
    rw [Nat.zero_mul, Nat.add_zero] at e
    rwa [← e] at h
  · rw [h1] at e ⊢
    simp only [decide_true, if_true]
    have hn := identifies_neg h
    have : neg T (absPat T bits) = bits := by
      have hal := absPat_lt T bits
      have haW : absPat T bits < 2 ^ T.W := by omega
      obtain ⟨g1, g2, g3⟩ := signBit_neg haW
      have := (pat_decomp g3).1
      rw [g1, g2, absPat_idem] at this
      have hz : signBit T (absPat T bits) = 0 := by
        unfold signBit; rw [Nat.div_eq_of_lt hal]
      rw [hz] at this
      omega
    rwa [this] at hn

theorem fmtK {T : FloatType} {ds : List (Fin 10)} {k : Int} (h1 : ds.length ≤ maxSigDigits T)
    (h2 : ds ≠ []) (h3 : k.natAbs ≤ 343) : ((ds.length : Int) + k - 1).natAbs < 1000 := by
  have : 0 < ds.length := List.length_pos_iff.mpr h2
  have : ds.length ≤ 17 := by cases T <;> simp [maxSigDigits] at h1 <;> omega
  omega

theorem fmt_valid (neg : Bool) (ds : List (Fin 10)) (k : Int) (hne : ds ≠ []) :
    (fmtNumeral neg ds k).Valid := by
  unfold fmtNumeral Numeral.Valid Numeral.fracDigits
  dsimp only
  generalize (if neg = true then some true else none : Option Bool) = sg
  have := expDigits_len ((ds.length : Int) + k - 1).natAbs
  have hx : expDigits ((ds.length : Int) + k - 1).natAbs ≠ [] := by
    intro h; rw [h] at this; simp at this
  split_ifs <;> simp [hne, hx]

/-! ## C01 -/

/-- **C01.** For every finite non-zero value, `ftoa` prints a numeral whose exact
value is strictly closer to the value than to any other finite value of the type
(and does not overflow). -/
theorem C01_ftoa_identifies (T : FloatType) (bits : Nat) (hf : IsFinite T bits)
    (h0 : value T bits ≠ 0) :
    ∃ n : Numeral, n.Valid ∧ Prints T bits n.text ∧ Identifies T n.value bits := by
  obtain ⟨ds, k, h1, ⟨hne, -⟩, h3, h4, h5⟩ :=
    ftoa_main T (absPat T bits) (absPat_lt_posInf hf) (abs_ne_zero_of_value h0)
  refine ⟨_, fmt_valid _ ds k hne, h5 bits hf.1 rfl, ?_⟩
  rw [fmt_value _ _ _ hne (fmtK h1 hne h4)]
  exact identifies_signed hf h3

/-- The least subnormal double, and 2/3 as a (negative) float. -/
example : (IsFinite .double 1 ∧ value .double 1 ≠ 0 ∧ Prints .double 1 (chars "7.41098468e-324")) ∧
    (IsFinite .float 0xBF2AAAAB ∧ value .float 0xBF2AAAAB ≠ 0 ∧
      Prints .float 0xBF2AAAAB (chars "-0.6666667")) :=
  ⟨⟨⟨by decide, by decide⟩, by decide +kernel, prints_eval (by decide) (by decide +kernel)⟩,
   ⟨by decide, by decide⟩, by decide +kernel, prints_eval (by decide) (by decide +kernel)⟩

/-- **C01, reader's view.** Any IEEE round-to-nearest-even reader of the printed
text gets exactly the printed value back. -/
theorem C01_reader (T : FloatType) (bits : Nat) (hf : IsFinite T bits) (h0 : value T bits ≠ 0)
    (n : Numeral) (hn : Prints T bits n.text) (b : Nat) : RoundsTo T n.value b ↔ b = bits := by
  obtain ⟨m, -, h2, h3⟩ := C01_ftoa_identifies T bits hf h0
  have : n = m := numeral_text_inj _ _ (prints_unique hn h2)
  subst this
  constructor
  · exact identifies_roundsTo_unique h3 h0
  · rintro rfl; exact identifies_roundsTo h3 h0

example : RoundsTo .double (-21 / 10) 0xC000CCCCCCCCCCCD := by
  have h := (C01_reader .double 0xC000CCCCCCCCCCCD ⟨by decide, by decide⟩ (by decide +kernel)
    ⟨some true, [2], some [1], none⟩ (prints_eval (by decide) (by decide +kernel)) _).mpr rfl
  rwa [show Numeral.value ⟨some true, [2], some [1], none⟩ = -21 / 10 by decide +kernel] at h

/-! ## C02, C03 -/

/-- **C02.** With a buffer of at least `max_buffer_size` characters no access is
out of bounds, no table lookup out of range, no assertion fails (the call returns
`.ok`), and nothing after the first `max_buffer_size` characters changes.  As
this includes buffers of exactly that size, no intermediate write leaves them. -/
theorem C02_ftoa_memory_safe (T : FloatType) (bits : Nat) (hb : bits < 2 ^ T.W) (buf : List Nat)
    (hbuf : maxBufferSize T ≤ buf.length) :
    ∃ buf' len, ftoa T bits buf = .ok (buf', len) ∧ buf'.length = buf.length ∧
      buf'.drop (maxBufferSize T) = buf.drop (maxBufferSize T) := by
  obtain ⟨t, -, h2, h3⟩ := ftoa_total T bits hb
  refine ⟨_, _, h3 buf (by omega), by simp; omega, ?_⟩
  rw [show maxBufferSize T = t.length + ((maxBufferSize T - (t.length + 1)) + 1) by omega,
    List.drop_length_add_append, List.drop_succ_cons, List.drop_drop]
  congr 1; omega

/-- A buffer of exactly `max_buffer_size` characters and a long text. -/
example : ∃ buf' len, ftoa .double 0xFFEFFFFFFFFFFFFF (List.replicate 34 88) = .ok (buf', len) ∧
    buf'.length = 34 :=
  have ⟨b, l, h, h', _⟩ := C02_ftoa_memory_safe .double 0xFFEFFFFFFFFFFFFF (by decide) (List.replicate 34 88) (by decide)
  ⟨b, l, h, by simpa using h'⟩

/-- **C02, sharper.** A buffer that just fits the text and its terminator is
enough, whatever its size. -/
theorem C02_ftoa_exact_fit (T : FloatType) (bits : Nat) (s : List Nat) (hb : bits < 2 ^ T.W)
    (hs : Prints T bits s) (buf : List Nat) (hbuf : s.length + 1 ≤ buf.length) :
    ftoa T bits buf = .ok (s ++ 0 :: buf.drop (s.length + 1), s.length) := by
  obtain ⟨t, h1, h2, h3⟩ := ftoa_total T bits hb
  have : s = t := prints_unique hs (prints_of_ok h1 h2 h3)
  subst this
  exact h3 buf hbuf

/-- Five characters are enough for `-2.1`, and what follows is untouched. -/
example : ftoa .double 0xC000CCCCCCCCCCCD [9, 9, 9, 9, 9, 7] = .ok (chars "-2.1" ++ [0, 7], 4) :=
  C02_ftoa_exact_fit .double 0xC000CCCCCCCCCCCD (chars "-2.1") (by decide)
    (prints_eval (by decide) (by decide +kernel)) [9, 9, 9, 9, 9, 7] (by decide)

/-- **C03.** The returned length is the length of the C string written. -/
theorem C03_ftoa_length (T : FloatType) (bits : Nat) (hb : bits < 2 ^ T.W) (buf buf' : List Nat)
    (len : Nat) (hbuf : maxBufferSize T ≤ buf.length) (h : ftoa T bits buf = .ok (buf', len)) :
    buf'[len]? = some 0 ∧ (∀ i < len, ∃ c, buf'[i]? = some c ∧ c ≠ 0) ∧ 0 < len ∧
      len + 1 ≤ maxBufferSize T := by
  obtain ⟨t, h1, h2, h3⟩ := ftoa_total T bits hb
  rw [h3 buf (by omega)] at h
  simp only [Except.ok.injEq, Prod.mk.injEq] at h
  obtain ⟨rfl, rfl⟩ := h
  refine ⟨by simp, ?_, ?_, h2⟩
  · intro i hi
    refine ⟨t[i], ?_, h1 _ (List.getElem_mem _)⟩
    rw [List.getElem?_append_left hi, List.getElem?_eq_getElem hi]
  · by_cases hc : absPat T bits = 0 ∨ posInf T ≤ absPat T bits
    · have hp : Prints T bits (specialText T bits) := by
        have hsl : (specialText T bits).length ≤ 4 := by unfold specialText; split_ifs <;> simp
        refine prints_of_ok ?_ ?_ (ftoa_special T bits hc)
        · unfold specialText; split_ifs <;> simp
        · unfold maxBufferSize maxDigits halfDigits10
          cases T <;> simp only [digits10] <;> omega
      rw [prints_unique (prints_of_ok h1 h2 h3) hp]
      unfold specialText; split_ifs <;> simp
    · obtain ⟨ds, k, -, ⟨hne, -⟩, -, -, h6⟩ := ftoa_main T (absPat T bits) (by omega) (by omega)
      rw [prints_unique (prints_of_ok h1 h2 h3) (h6 bits hb rfl), fmt_text, List.length_append]
      have := (fmtBody_len ds k hne).1
      have : 0 < ds.length := List.length_pos_iff.mpr hne
      omega

example : (ftoa .float 0x00000001 (List.replicate 24 88)).toOption.map (fun r => (cstr r.1, r.2)) =
    some (chars "2.1019e-45", 10) := by decide +kernel

/-! ## C04, C05, C06 -/

theorem fmt_shape (neg : Bool) (ds : List (Fin 10)) (k : Int) (hne : ds ≠ []) (hh : ds.head hne ≠ 0)
    (hK : ((ds.length : Int) + k - 1).natAbs < 1000) :
    PrintedShape (fmtNumeral neg ds k) := by
  have hl : 0 < ds.length := List.length_pos_iff.mpr hne
  have hx : (expDigits ((ds.length : Int) + k - 1).natAbs).length = 2 ∨
      (expDigits ((ds.length : Int) + k - 1).natAbs).length = 3 ∧
      (expDigits ((ds.length : Int) + k - 1).natAbs).head? ≠ some 0 := by
    unfold expDigits
    split_ifs with h
    · right
      refine ⟨by simp, ?_⟩
      simp only [List.cons_append, List.head?_cons, ne_eq, Option.some.injEq]
      intro h2
      have := congrArg Fin.val h2
      simp at this
      omega
    · left; simp
  have hsg : (if neg = true then some true else none : Option Bool) ≠ some false := by
    split_ifs <;> simp
  obtain ⟨c, ct, rfl⟩ := List.exists_cons_of_ne_nil hne
  simp only [List.head_cons] at hh
  have hsg2 : ∀ b : Prop, [Decidable b] → (if b then some true else none : Option Bool) ≠ some false := by
    intro b _; split_ifs <;> simp
  unfold fmtNumeral
  dsimp only
  by_cases h1 : max ((((c :: ct).length : Nat) : Int) + k) (-k) ≤ 16
  · rw [if_pos h1]
    by_cases h2 : 0 ≤ k
    · rw [if_pos h2]
      refine ⟨hsg, by simp, Or.inr (by simpa using hh), by simp, by simp⟩
    · rw [if_neg h2]
      by_cases h3 : 0 < (((c :: ct).length : Nat) : Int) + k
      · rw [if_pos h3]
        obtain ⟨d, hd⟩ : ∃ d, ((((c :: ct).length : Nat) : Int) + k).toNat = d + 1 :=
          ⟨((((c :: ct).length : Nat) : Int) + k).toNat - 1, by omega⟩
        rw [hd]
        refine ⟨hsg, by simp, Or.inr (by simpa using hh), ?_, by simp⟩
        simp only [List.drop_succ_cons, ne_eq, Option.some.injEq, List.drop_eq_nil_iff, not_le]
        simp only [List.length_cons] at hd ⊢
        omega
      · rw [if_neg h3]
        exact ⟨hsg, by simp, Or.inl rfl, by simp, by simp⟩
  · rw [if_neg h1]
    refine ⟨hsg, by simp, Or.inr (by simpa using hh), ?_, ?_⟩
    · dsimp only
      split_ifs with h4
      · simp only [List.drop_succ_cons, List.drop_zero, ne_eq, Option.some.injEq]
        rintro rfl; simp at h4
      · simp
    · intro e he
      simp only [Option.some.injEq] at he
      subst he
      exact ⟨rfl, hsg2 _, by simp, hx⟩

/-- **C04.** The text of a finite value follows the documented grammar. -/
theorem C04_ftoa_grammar (T : FloatType) (bits : Nat) (hf : IsFinite T bits) :
    ∃ n : Numeral, Prints T bits n.text ∧ PrintedShape n := by
  by_cases h0 : value T bits = 0
  · refine ⟨⟨none, [0], none, none⟩, ?_, ⟨by simp, by simp, Or.inl rfl, by simp, by simp⟩⟩
    have h := value_zero_iff.mp h0
    have hs : specialText T bits = ['0'.toNat] := by unfold specialText; rw [if_pos h]
    have ht : (⟨none, [0], none, none⟩ : Numeral).text = specialText T bits := by
      rw [hs]; rfl
    rw [ht]
    refine prints_of_ok (by rw [hs]; simp) ?_ (ftoa_special T bits (Or.inl h))
    rw [hs]; unfold maxBufferSize maxDigits; simp
  · obtain ⟨ds, k, h1, ⟨hne, hh, -⟩, h3, h4, h5⟩ :=
      ftoa_main T (absPat T bits) (absPat_lt_posInf hf) (abs_ne_zero_of_value h0)
    exact ⟨_, h5 bits hf.1 rfl, fmt_shape _ ds k hne hh (fmtK h1 hne h4)⟩

/-- The notations: integer, fraction, exponent. -/
example : Prints .double 0x4340000000000001 (chars "9007199254740994") ∧
    Prints .double 0x40FE240C9FCB0C02 (chars "123456.789012") ∧
    Prints .double 0x3F50624DD2F1A9FC (chars "0.001") ∧
    Prints .double 0x7FEFFFFFFFFFFFFF (chars "1.7976931348623158e308") ∧
    Prints .float 0x80800000 (chars "-1.1754944e-38") :=
  ⟨prints_eval (by decide) (by decide +kernel), prints_eval (by decide) (by decide +kernel),
   prints_eval (by decide) (by decide +kernel), prints_eval (by decide) (by decide +kernel),
   prints_eval (by decide) (by decide +kernel)⟩

theorem fmt_digits (neg : Bool) (ds : List (Fin 10)) (k : Int) (hne : ds ≠ []) :
    ∃ i j, (fmtNumeral neg ds k).int ++ (fmtNumeral neg ds k).fracDigits =
      List.replicate i 0 ++ ds ++ List.replicate j 0 := by
  have hl : 0 < ds.length := List.length_pos_iff.mpr hne
  unfold fmtNumeral Numeral.fracDigits
  dsimp only
  generalize (if neg = true then some true else none : Option Bool) = sg
  generalize (if (ds.length : Int) + k - 1 < 0 then some true else none : Option Bool) = sg2
  split_ifs with h1 h2 h3 h4
  · exact ⟨0, k.toNat, by simp⟩
  · exact ⟨0, 0, by simp⟩
  · refine ⟨(-((ds.length : Int) + k)).toNat + 1, 0, ?_⟩
    simp [List.replicate_succ]
  · exact ⟨0, 0, by simp [-List.drop_one]⟩
  · exact ⟨0, 0, by simp [List.take_of_length_le (show ds.length ≤ 1 by omega)]⟩

/-- **C05 and C06.** The significant digits of the printed number: at most 17 / 9
of them, the first and the last non-zero; exponential notation is used exactly
when more than 16 places are needed on either side of the decimal point. -/
theorem C05_C06_digits (T : FloatType) (bits : Nat) (hf : IsFinite T bits) (h0 : value T bits ≠ 0) :
    ∃ (n : Numeral) (ds : List (Fin 10)) (k : Int), Prints T bits n.text ∧
      SignificantDigits n ds k ∧ ds.length ≤ maxSigDigits T ∧
      (n.exp ≠ none ↔ 16 < max ((ds.length : Int) + k) (-k)) := by
  obtain ⟨ds, k, h1, ⟨hne, hh, hla⟩, h3, h4, h5⟩ :=
    ftoa_main T (absPat T bits) (absPat_lt_posInf hf) (abs_ne_zero_of_value h0)
  refine ⟨_, ds, k, h5 bits hf.1 rfl, ⟨hne, ?_, ?_, fmt_digits _ ds k hne, ?_⟩, h1, ?_⟩
  · rw [List.head?_eq_some_head hne]; simpa using hh
  · rw [List.getLast?_eq_some_getLast hne]; simpa using hla
  · exact fmt_absValue _ ds k hne (fmtK h1 hne h4)
  · unfold fmtNumeral
    dsimp only
    generalize (if decide (signBit T bits = 1) = true then some true else none : Option Bool) = sg
    split_ifs <;> simp <;> omega

theorem C05_ftoa_digit_count (T : FloatType) (bits : Nat) (hf : IsFinite T bits)
    (h0 : value T bits ≠ 0) :
    ∃ (n : Numeral) (ds : List (Fin 10)) (k : Int), Prints T bits n.text ∧
      SignificantDigits n ds k ∧ ds.length ≤ maxSigDigits T := by
  obtain ⟨n, ds, k, h1, h2, h3, -⟩ := C05_C06_digits T bits hf h0
  exact ⟨n, ds, k, h1, h2, h3⟩

theorem C06_ftoa_notation (T : FloatType) (bits : Nat) (hf : IsFinite T bits)
    (h0 : value T bits ≠ 0) :
    ∃ (n : Numeral) (ds : List (Fin 10)) (k : Int), Prints T bits n.text ∧
      SignificantDigits n ds k ∧ (n.exp ≠ none ↔ 16 < max ((ds.length : Int) + k) (-k)) := by
  obtain ⟨n, ds, k, h1, h2, -, h4⟩ := C05_C06_digits T bits hf h0
  exact ⟨n, ds, k, h1, h2, h4⟩

/-- Either side of the threshold: `1e16` needs 17 places and has an exponent,
`1e15` needs 16 and has none. -/
example : Prints .double 0x4341C37937E08000 (chars "1e16") ∧
    Prints .double 0x430C6BF526340000 (chars "1000000000000000") :=
  ⟨prints_eval (by decide) (by decide +kernel), prints_eval (by decide) (by decide +kernel)⟩

/-! ## C07 -/

/-- **C07.** The text of `-v` is '-' followed by the text of `v`. -/
theorem C07_ftoa_sign (T : FloatType) (bits : Nat) (hf : IsFinite T bits) (h0 : 0 < value T bits)
    (s : List Nat) (hs : Prints T bits s) : Prints T (neg T bits) ('-'.toNat :: s) := by
  obtain ⟨ds, k, h1, ⟨hne, -⟩, h3, h4, h5⟩ :=
    ftoa_main T (absPat T bits) (absPat_lt_posInf hf) (abs_ne_zero_of_value h0.ne')
  obtain ⟨g1, g2, g3⟩ := signBit_neg hf.1
  have hsz : signBit T bits = 0 := by
    have := value_sign hf h0.ne'
    have := (pat_decomp hf.1).2
    have : ¬ value T bits < 0 := by linarith
    tauto
  have p1 := h5 bits hf.1 rfl
  have p2 := h5 _ g3 g2
  rw [g1, hsz, fmt_text] at p2
  rw [hsz, fmt_text] at p1
  simp only [Nat.zero_ne_one, decide_false, Bool.false_eq_true, if_false, List.nil_append] at p1
  simp only [Nat.sub_zero, decide_true, if_true, List.singleton_append] at p2
  rwa [← prints_unique hs p1] at p2

example : Prints .float 0xBDCCCCCD (chars "-0.1") :=
  C07_ftoa_sign .float 0x3DCCCCCD ⟨by decide, by decide⟩ (by decide +kernel) (chars "0.1")
    (prints_eval (by decide) (by decide +kernel))

/-! ## C08, C09 -/

theorem isNaN_abs {T : FloatType} {b : Nat} (h : IsNaN T b) : posInf T < absPat T b := by
  obtain ⟨-, h2, h3⟩ := h
  rw [expField_eq] at h2
  rw [fracField_eq] at h3
  have := Nat.div_add_mod (absPat T b) (2 ^ (T.p - 1))
  unfold posInf
  rw [h2] at this
  rw [Nat.mul_comm]
  omega

theorem isInf_abs {T : FloatType} {b : Nat} (h : IsInf T b) : absPat T b = posInf T := by
  obtain ⟨-, h2, h3⟩ := h
  rw [expField_eq] at h2
  rw [fracField_eq] at h3
  have := Nat.div_add_mod (absPat T b) (2 ^ (T.p - 1))
  unfold posInf
  rw [h2] at this
  rw [Nat.mul_comm]
  omega

theorem prints_special (T : FloatType) (bits : Nat)
    (h : absPat T bits = 0 ∨ posInf T ≤ absPat T bits) : Prints T bits (specialText T bits) := by
  have hsl : (specialText T bits).length ≤ 4 := by unfold specialText; split_ifs <;> simp
  refine prints_of_ok ?_ ?_ (ftoa_special T bits h)
  · unfold specialText; split_ifs <;> simp
  · unfold maxBufferSize maxDigits halfDigits10
    cases T <;> simp only [digits10] <;> omega

/-- **C08.** NaNs, infinities and zeros. -/
theorem C08_ftoa_special (T : FloatType) (bits : Nat) :
    (IsNaN T bits → Prints T bits (chars "nan")) ∧
    (IsInf T bits → Prints T bits (if signBit T bits = 1 then chars "-inf" else chars "inf")) ∧
    (IsFinite T bits → value T bits = 0 → Prints T bits (chars "0")) := by
  refine ⟨fun h => ?_, fun h => ?_, fun h h0 => ?_⟩
  · have h1 := isNaN_abs h
    have := prints_special T bits (Or.inr h1.le)
    unfold specialText at this
    have hp := posInf_pos T
    rw [if_neg (by omega), if_neg (by omega)] at this
    exact this
  · have h1 := isInf_abs h
    have := prints_special T bits (Or.inr h1.ge)
    unfold specialText at this
    have hp := posInf_pos T
    rw [if_neg (by omega), if_pos h1, isNegative_eq h.1] at this
    simp only [decide_eq_true_eq] at this
    exact this
  · have h1 := value_zero_iff.mp h0
    have := prints_special T bits (Or.inl h1)
    unfold specialText at this
    rw [if_pos h1] at this
    exact this

example : IsNaN .double 0xFFF8000000000001 ∧ IsInf .double 0xFFF0000000000000 ∧
    IsFinite .double 0x8000000000000000 ∧ value .double 0x8000000000000000 = 0 :=
  ⟨⟨by decide, by decide, by decide⟩, ⟨by decide, by decide, by decide⟩, ⟨by decide, by decide⟩,
   by decide +kernel⟩

/-- **C07, infinities.** The same holds for infinity. -/
theorem C07_infinity (T : FloatType) (bits : Nat) (h : IsInf T bits) (hs : signBit T bits = 0) (s : List Nat)
    (hp : Prints T bits s) : Prints T (neg T bits) ('-'.toNat :: s) := by
  have h1 := (C08_ftoa_special T bits).2.1 h
  rw [hs, if_neg (by decide)] at h1
  rw [prints_unique hp h1]
  obtain ⟨g1, g2, g3⟩ := signBit_neg h.1
  have hinf : IsInf T (neg T bits) := by
    refine ⟨g3, ?_, ?_⟩
    · rw [expField_eq, g2, ← expField_eq]; exact h.2.1
    · rw [fracField_eq, g2, ← fracField_eq]; exact h.2.2
  have h2 := (C08_ftoa_special T _).2.1 hinf
  rw [g1, hs, if_pos rfl] at h2
  exact h2

/-- **C09.** `-0.0` prints like `+0.0`, so a correct reader gets `+0.0` back:
the bit exact round trip fails at `-0.0` and nowhere else. -/
theorem C09_ftoa_negative_zero (T : FloatType) (bits : Nat) (hf : IsFinite T bits) :
    ∃ n : Numeral, Prints T bits n.text ∧
      ((∀ b, RoundsTo T n.value b ↔ b = bits) ↔ bits ≠ neg T 0) := by
  have hz : IsFinite T 0 := isFinite_of_lt (posInf_pos T)
  by_cases h0 : value T bits = 0
  · refine ⟨⟨none, [0], none, none⟩, (C08_ftoa_special T bits).2.2 hf h0, ?_⟩
    have hv : (⟨none, [0], none, none⟩ : Numeral).value = 0 := by
      simp [Numeral.value, Numeral.isNeg, Numeral.absValue, Numeral.fracDigits, digitsVal]
    rw [hv]
    have hz0 : value T 0 = 0 := value_zero_iff.mpr (by simp [absPat])
    have hthr := threshold_pos T
    have hr : ∀ b, RoundsTo T 0 b ↔ b = 0 := by
      intro b
      constructor
      · rintro ⟨g1, g2, g3, g4⟩
        have hs : signBit T b = 0 := by
          have := (pat_decomp g1.1).2
          have : ¬ signBit T b = 1 := by rw [g3]; simp
          omega
        by_contra hne
        have hvne : value T 0 ≠ value T b := by
          intro he
          apply hne
          apply value_inj g1 hz _ he.symm
          rw [hs, signBit_of_lt (posInf_pos T)]
        rcases g4 0 hz hvne with h | h
        · rw [hz0] at h; simp at h; exact absurd h (not_lt.mpr (abs_nonneg _))
        · have := h.1; rw [hz0] at this hvne; simp at this; exact hvne this.symm
      · rintro rfl
        refine ⟨hz, by simpa using hthr, ?_, ?_⟩
        · rw [signBit_of_lt (posInf_pos T)]; simp
        · intro b' hb' hne; left
          rw [hz0] at hne ⊢; simpa using hne
    have hn0 : neg T 0 ≠ 0 := by cases T <;> decide
    constructor
    · intro h hb
      have := (h 0).mp ((hr 0).mpr rfl)
      rw [hb] at this; exact hn0 this.symm
    · intro hb b
      rw [hr]
      have hab := value_zero_iff.mp h0
      have : bits = 0 := by
        obtain ⟨e, hs⟩ := pat_decomp hf.1
        rcases hs with hs | hs
        · rw [hab, hs] at e; omega
        · exfalso; apply hb
          rw [hab, hs] at e
          rw [e]; cases T <;> decide
      rw [this]
  · obtain ⟨n, -, h2, -⟩ := C01_ftoa_identifies T bits hf h0
    refine ⟨n, h2, ?_⟩
    have := C01_reader T bits hf h0 n h2
    simp only [this, implies_true, true_iff]
    rintro rfl
    exact h0 (by rw [value_neg hz.1, value_zero_iff.mpr (by simp [absPat]), neg_zero])

/-- Both sides occur: `-0.0`, and everything else. -/
example : neg .float 0 = 0x80000000 ∧ Prints .float 0x80000000 (chars "0") ∧ (1 : Nat) ≠ neg .float 0 :=
  ⟨by decide, prints_eval (by decide) (by decide +kernel), by decide⟩

/-! ## C10 -/

theorem identifies_zero (T : FloatType) (bits : Nat) (hf : IsFinite T bits) (h0 : value T bits = 0) :
    Identifies T 0 bits := by
  refine ⟨hf, ?_, ?_⟩
  · rw [abs_zero]; exact threshold_pos T
  · intro b' _ hne
    rw [h0] at hne ⊢; simpa using hne

/-- Every finite value, zero included, prints a numeral identifying it. -/
theorem prints_identifies (T : FloatType) (bits : Nat) (hf : IsFinite T bits) (n : Numeral)
    (hn : Prints T bits n.text) : Identifies T n.value bits := by
  by_cases h0 : value T bits = 0
  · have := (C08_ftoa_special T bits).2.2 hf h0
    have he : n.text = (⟨none, [0], none, none⟩ : Numeral).text := prints_unique hn this
    rw [numeral_text_inj _ _ he]
    have hv : (⟨none, [0], none, none⟩ : Numeral).value = 0 := by
      simp [Numeral.value, Numeral.isNeg, Numeral.absValue, Numeral.fracDigits, digitsVal]
    rw [hv]
    exact identifies_zero T bits hf h0
  · obtain ⟨m, -, h2, h3⟩ := C01_ftoa_identifies T bits hf h0
    rwa [numeral_text_inj _ _ (prints_unique hn h2)]

/-- **C10.** Printing is strictly monotone on finite values. -/
theorem C10_ftoa_monotone (T : FloatType) (u v : Nat) (hu : IsFinite T u) (hv : IsFinite T v)
    (h : value T u < value T v) (n m : Numeral) (hn : Prints T u n.text) (hm : Prints T v m.text) :
    n.value < m.value :=
  identifies_lt (prints_identifies T u hu n hn) (prints_identifies T v hv m hm) h

/-- Neighbouring doubles. -/
example : value .double 0x3FB9999999999999 < value .double 0x3FB999999999999A ∧
    Prints .double 0x3FB9999999999999 (chars "9.999999999999999e-02") ∧
    Prints .double 0x3FB999999999999A (chars "0.1") :=
  ⟨by decide +kernel, prints_eval (by decide) (by decide +kernel),
   prints_eval (by decide) (by decide +kernel)⟩

/-- **C10.** Distinct non-zero finite values never print the same text. -/
theorem C10_ftoa_injective (T : FloatType) (u v : Nat) (hu : IsFinite T u) (hv : IsFinite T v)
    (h0 : value T u ≠ 0) (s : List Nat) (h1 : Prints T u s) (h2 : Prints T v s) : u = v := by
  obtain ⟨n, -, h3, -⟩ := C01_ftoa_identifies T u hu h0
  have := prints_unique h1 h3
  subst this
  apply value_inj' hu hv h0
  rcases lt_trichotomy (value T u) (value T v) with h | h | h
  · exact absurd (C10_ftoa_monotone T u v hu hv h n n h1 h2) (lt_irrefl _)
  · exact h
  · exact absurd (C10_ftoa_monotone T v u hv hu h n n h2 h1) (lt_irrefl _)

/-- The only collision: `-0.0` and `0.0`. -/
example : Prints .double 0 (chars "0") ∧ Prints .double 0x8000000000000000 (chars "0") :=
  ⟨prints_eval (by decide) (by decide +kernel), prints_eval (by decide) (by decide +kernel)⟩

/-! ## C11, C12 -/

/-- **C11.** `to_string` returns exactly the characters `ftoa` writes. -/
theorem C11_to_string (T : FloatType) (bits : Nat) (hb : bits < 2 ^ T.W) :
    ∃ s, toBasicString T bits = .ok s ∧ Prints T bits s ∧ (∀ c ∈ s, c ≠ 0) := by
  obtain ⟨t, h1, h2, h3⟩ := ftoa_total T bits hb
  refine ⟨t, ?_, prints_of_ok h1 h2 h3, h1⟩
  unfold toBasicString
  rw [h3 _ (by simpa using h2), ok_bind]
  exact congrArg Except.ok (cstr_append h1 _)

example : (toBasicString .double 0x40FE240C9FCB0C02).toOption = some (chars "123456.789012") := by
  decide +kernel

/-- **C12.** The outcome does not depend on what was in the buffer. -/
theorem C12_ftoa_contents (T : FloatType) (bits : Nat) (hb : bits < 2 ^ T.W) (buf1 buf2 : List Nat)
    (h1 : maxBufferSize T ≤ buf1.length) (h2 : maxBufferSize T ≤ buf2.length) :
    ∃ buf1' buf2' len, ftoa T bits buf1 = .ok (buf1', len) ∧ ftoa T bits buf2 = .ok (buf2', len) ∧
      buf1'.take (len + 1) = buf2'.take (len + 1) := by
  obtain ⟨t, -, g2, g3⟩ := ftoa_total T bits hb
  refine ⟨_, _, _, g3 buf1 (by omega), g3 buf2 (by omega), ?_⟩
  rw [List.take_length_add_append, List.take_length_add_append]
  simp

/-! ## The hypotheses are met -/

/-- `1.0`, the least subnormal and the largest finite double are finite. -/
example : IsFinite .double 0x3FF0000000000000 ∧ IsFinite .double 1 ∧
    IsFinite .double 0x7FEFFFFFFFFFFFFF ∧ IsFinite .float 0xFF7FFFFF := by
  unfold IsFinite; decide

example : value .double 0x3FF0000000000000 = 1 := by
  have : expField .double 0x3FF0000000000000 = 1023 := by decide
  have : signBit .double 0x3FF0000000000000 = 0 := by decide
  have : fracField .double 0x3FF0000000000000 = 0 := by decide
  simp [value, mag, *, emin, FloatType.p, FloatType.minExp]
  norm_num

example : IsNaN .float 0x7FC00000 ∧ IsInf .float 0xFF800000 := by
  unfold IsNaN IsInf; decide

example : (ftoa .double 0xC000CCCCCCCCCCCD (List.replicate 34 7)).toOption.map
    (fun r => (cstr r.1, r.2)) = some (chars "-2.1", 4) := by decide +kernel

end Floaxie
