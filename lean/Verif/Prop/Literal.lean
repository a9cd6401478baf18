import Verif.Spec.Literal
import Verif.Prop.Json
import Verif.Prop.Shortest

/-!
# C103: printed numbers in source code and in data formats
-/

namespace Floaxie
open Spec FloatType

theorem jsonInt_digits {s : List Nat} (h : JsonInt s) : JsonDigits s := by
  rcases h with rfl | ⟨c, cs, rfl, h1, h2, h3⟩
  · exact ⟨by simp, by intro c hc; simp at hc; subst hc; exact jsonDigit_char 0⟩
  · refine ⟨by simp, fun x hx => ?_⟩
    rcases List.mem_cons.mp hx with rfl | hx
    · have e1 : '0'.toNat = 48 := rfl
      have e2 : '1'.toNat = 49 := rfl
      exact ⟨by omega, h2⟩
    · exact h3 x hx

theorem jsonInt_head {s : List Nat} (h : JsonInt s) : s = ['0'.toNat] ∨ s.head? ≠ some '0'.toNat := by
  rcases h with rfl | ⟨c, cs, rfl, h1, h2, h3⟩
  · exact Or.inl rfl
  · refine Or.inr ?_
    have e1 : '0'.toNat = 48 := rfl
    have e2 : '1'.toNat = 49 := rfl
    simp only [List.head?_cons, ne_eq, Option.some.injEq]
    omega

theorem tomlDigits_of {s : List Nat} (h : JsonDigits s) : TomlDigits s := by
  obtain ⟨h0, h⟩ := h
  induction s with
  | nil => exact absurd rfl h0
  | cons c s ih =>
    cases s with
    | nil => exact .one (h c (by simp))
    | cons d s => exact .digit (h c (by simp)) (ih (by simp) (fun x hx => h x (List.mem_cons_of_mem _ hx)))

theorem tomlExp_of {s : List Nat} (h : JsonExp s) : TomlExp s := by
  obtain ⟨e, sg, cs, h1, h2, h3, h4⟩ := h
  exact ⟨e, sg, cs, h1, h2, h3, tomlDigits_of h4⟩

theorem tomlInt_of {m i : List Nat} (hm : m = [] ∨ m = ['-'.toNat]) (h : JsonInt i) : TomlInt (m ++ i) := by
  refine ⟨m, i, rfl, ?_, tomlDigits_of (jsonInt_digits h), jsonInt_head h⟩
  rcases hm with rfl | rfl
  · exact Or.inl rfl
  · exact Or.inr (Or.inl rfl)

/-- The two kinds of constants exclude each other. -/
theorem cInteger_not_cFloating {s : List Nat} (h : CInteger s) : ¬ CFloating s := by
  have hd := (jsonInt_digits h).2
  have dot : ¬ JsonDigit '.'.toNat := by unfold JsonDigit; decide
  have exp : ∀ x, JsonExp x → ∃ c ∈ x, ¬ JsonDigit c := by
    rintro x ⟨e, sg, cs, rfl, he, -⟩
    refine ⟨e, by simp, ?_⟩
    rcases he with rfl | rfl <;> (unfold JsonDigit; decide)
  rintro (⟨f, x, rfl, hf, -⟩ | ⟨a, x, rfl, -, hx⟩)
  · rcases hf with ⟨a, b, rfl, -⟩ | ⟨a, rfl, -⟩
    · exact dot (hd _ (by simp))
    · exact dot (hd _ (by simp))
  · obtain ⟨c, hc, hn⟩ := exp x hx
    exact hn (hd c (by simp [hc]))

/-- The parts of a number that was printed. -/
theorem printed_parts {n : Numeral} (h : PrintedShape n) : ∃ m i f x,
    n.text = m ++ i ++ f ++ x ∧ (m = [] ∨ m = ['-'.toNat]) ∧ JsonInt i ∧ (f = [] ∨ JsonFrac f) ∧ (x = [] ∨ JsonExp x) ∧
    (n.frac = none ∧ n.exp = none ↔ f = [] ∧ x = []) := by
  obtain ⟨m, i, f, x, h1, h2, h3, h4, h5⟩ := json_of_shape h
  refine ⟨m, i, f, x, h1, h2, h3, h4, h5, ?_⟩
  have hsub : ∀ c ∈ m ++ i, c = '-'.toNat ∨ JsonDigit c := by
    intro c hc
    rcases List.mem_append.mp hc with hc | hc
    · rcases h2 with rfl | rfl
      · cases hc
      · exact Or.inl (by simpa using hc)
    · exact Or.inr ((jsonInt_digits h3).2 c hc)
  constructor
  · rintro ⟨hf, hx⟩
    have ht : ∀ c ∈ n.text, c = '-'.toNat ∨ JsonDigit c := by
      intro c hc
      unfold Numeral.text Numeral.mantText Numeral.expText at hc
      rw [hf, hx] at hc
      simp only [List.append_nil, List.mem_append, List.mem_map] at hc
      rcases hc with hc | ⟨d, -, rfl⟩
      · have := h.sign
        cases hs : n.sign with
        | none => rw [hs] at hc; cases hc
        | some b =>
          cases b with
          | false => exact absurd hs this
          | true => rw [hs] at hc; exact Or.inl (by simpa [signText] using hc)
      · exact Or.inr (jsonDigit_char d)
    constructor
    · rcases h4 with h4 | ⟨cs, rfl, -⟩
      · exact h4
      · rcases ht '.'.toNat (by rw [h1]; simp) with g | g
        · exact absurd g (by decide)
        · exact absurd g (by unfold JsonDigit; decide)
    · rcases h5 with h5 | ⟨e, sg, cs, rfl, he, -⟩
      · exact h5
      · rcases ht e (by rw [h1]; simp) with g | g
        · rcases he with rfl | rfl <;> exact absurd g (by decide)
        · rcases he with rfl | rfl <;> exact absurd g (by unfold JsonDigit; decide)
  · rintro ⟨rfl, rfl⟩
    simp only [List.append_nil] at h1
    constructor
    · cases hf : n.frac with
      | none => rfl
      | some ds =>
        rcases hsub '.'.toNat (by rw [← h1]; unfold Numeral.text Numeral.mantText; simp [hf]) with g | g
        · exact absurd g (by decide)
        · exact absurd g (by unfold JsonDigit; decide)
    · cases hx : n.exp with
      | none => rfl
      | some e =>
        have hu := (h.exp e hx).1
        rcases hsub 'e'.toNat (by
          rw [← h1]; unfold Numeral.text Numeral.expText ExpPart.text; rw [hx]; simp [hu]) with g | g
        · exact absurd g (by decide)
        · exact absurd g (by unfold JsonDigit; decide)

/-- A value of at least `2^p` is a whole number. -/
theorem whole_of_large {T : FloatType} {b : Nat} (hl : (2 : ℚ) ^ T.p ≤ |value T b|) : ∃ z : ℤ, value T b = z := by
  have hm : 0 ≤ mag T b := by rw [mag_eq]; have := emin_pos T; positivity
  have hv : |value T b| = mag T b := by
    unfold value
    split_ifs
    · rw [abs_neg, abs_of_nonneg hm]
    · exact abs_of_nonneg hm
  rw [hv] at hl
  have key : ∃ k : Nat, mag T b = k := by
    have hfr : fracField T b < 2 ^ (T.p - 1) := Nat.mod_lt _ (by positivity)
    have hp : T.p - 1 + 1 = T.p := by cases T <;> rfl
    have h2 : (2 : ℚ) ^ T.p = 2 ^ (T.p - 1) + 2 ^ (T.p - 1) := by rw [← hp, pow_succ]; simp; ring
    have hpos : (0 : ℚ) < 2 ^ (T.p - 1) := by positivity
    have hfr' : (fracField T b : ℚ) < 2 ^ (T.p - 1) := by exact_mod_cast hfr
    unfold mag at hl ⊢
    split_ifs at hl ⊢ with h0
    · exfalso
      have : (2 : ℚ) ^ emin T ≤ 1 := zpow_le_one_of_nonpos₀ (by norm_num) (by cases T <;> decide)
      have h3 : (fracField T b : ℚ) * 2 ^ emin T ≤ fracField T b * 1 := mul_le_mul_of_nonneg_left this (by positivity)
      linarith
    · by_cases he : 0 ≤ emin T + expField T b - 1
      · obtain ⟨k, hk⟩ := Int.eq_ofNat_of_zero_le he
        refine ⟨(2 ^ (T.p - 1) + fracField T b) * 2 ^ k, ?_⟩
        rw [hk]
        push_cast
        simp
      · exfalso
        have h3 : (2 : ℚ) ^ (emin T + expField T b - 1) ≤ 1 := zpow_le_one_of_nonpos₀ (by norm_num) (by omega)
        have h4 := mul_le_mul_of_nonneg_left h3 (by positivity : (0 : ℚ) ≤ ((2 ^ (T.p - 1) + fracField T b : Nat) : ℚ))
        push_cast at h4 hl
        linarith
  obtain ⟨k, hk⟩ := key
  unfold value
  split_ifs
  · exact ⟨-k, by rw [hk]; push_cast; rfl⟩
  · exact ⟨k, by rw [hk]; simp⟩

/-- A number printed without point and exponent is whole. -/
theorem whole_of_digits {T : FloatType} {bits : Nat} {n : Numeral} (hf : IsFinite T bits) (h0 : value T bits ≠ 0)
    (hn : Prints T bits n.text) (hfr : n.frac = none) (hx : n.exp = none) : ∃ z : ℤ, value T bits = z := by
  have hr := (C01_reader T bits hf h0 n hn bits).mpr rfl
  have ha : n.absValue = (digitsVal n.int : ℚ) := by
    unfold Numeral.absValue Numeral.fracDigits Numeral.expValue
    rw [hfr, hx]
    simp
  generalize digitsVal n.int = N at ha
  by_cases hN : N ≤ 2 ^ T.p
  · obtain ⟨a, a1, a2⟩ := exists_integer T N hN
    have key : ∃ b, IsFinite T b ∧ value T b = n.value := by
      unfold Numeral.value
      cases n.isNeg
      · exact ⟨a, isFinite_of_lt a1, by rw [a2, ha]; simp⟩
      · exact ⟨neg T a, isFinite_neg (isFinite_of_lt a1), by rw [value_neg (lt_posInf_lt a1), a2, ha]; simp⟩
    obtain ⟨b, b1, b2⟩ := key
    by_contra hne
    have hvb : value T b ≠ value T bits := by
      intro he
      apply hne
      rw [← he, b2]
      unfold Numeral.value
      split_ifs
      · exact ⟨-N, by rw [ha]; push_cast; rfl⟩
      · exact ⟨N, by rw [ha]; simp⟩
    have hz : n.value - value T b = 0 := by rw [b2]; ring
    rcases hr.2.2.2 b b1 hvb with h | ⟨h, -⟩
    · rw [hz, abs_zero] at h; exact absurd h (not_lt.mpr (abs_nonneg _))
    · rw [hz, abs_zero, abs_eq_zero, sub_eq_zero] at h
      exact hvb (by rw [b2, h])
  · by_cases hl : (2 : ℚ) ^ T.p ≤ |value T bits|
    · exact whole_of_large hl
    · exfalso
      have hl' := not_le.mp hl
      have hN' : (2 : ℚ) ^ T.p < N := by exact_mod_cast not_le.mp hN
      obtain ⟨a, a1, a2⟩ := exists_integer T (2 ^ T.p) le_rfl
      have key : ∃ b, IsFinite T b ∧ value T b = if n.isNeg then -(2 : ℚ) ^ T.p else 2 ^ T.p := by
        cases n.isNeg
        · exact ⟨a, isFinite_of_lt a1, by rw [a2]; simp⟩
        · exact ⟨neg T a, isFinite_neg (isFinite_of_lt a1), by rw [value_neg (lt_posInf_lt a1), a2]; simp⟩
      obtain ⟨b, b1, b2⟩ := key
      have hpos : (0 : ℚ) < 2 ^ T.p := by positivity
      have hvb : value T b ≠ value T bits := by
        intro he
        rw [← he, b2] at hl'
        split_ifs at hl'
        · rw [abs_neg, abs_of_pos hpos] at hl'; exact lt_irrefl _ hl'
        · rw [abs_of_pos hpos] at hl'; exact lt_irrefl _ hl'
      obtain ⟨l1, l2⟩ := abs_lt.mp hl'
      have hlt : |n.value - value T b| < |n.value - value T bits| := by
        unfold Numeral.value
        rw [b2, ha]
        split_ifs
        · rw [abs_of_nonpos (by linarith), abs_of_nonpos (by linarith)]; linarith
        · rw [abs_of_nonneg (by linarith), abs_of_nonneg (by linarith)]; linarith
      rcases hr.2.2.2 b b1 hvb with h | ⟨h, -⟩ <;> linarith

theorem cConst_xsd {m s : List Nat} (hm : OptSign m) (h : CInteger s ∨ CFloating s) : XsdNumber (m ++ s) := by
  rcases h with h | ⟨f, x, rfl, hf, hx⟩ | ⟨a, x, rfl, ha, hx⟩
  · exact ⟨m, s, [], by simp, hm, Or.inl (jsonInt_digits h), Or.inl rfl⟩
  · exact ⟨m, f, x, rfl, hm, Or.inr hf, hx⟩
  · exact ⟨m, a, x, rfl, hm, Or.inl ha, Or.inr hx⟩

/-- XML Schema numbers are numerals of the input grammar. -/
theorem numeral_of_xsd {s : List Nat} (h : XsdNumber s) : ∃ n : Numeral, n.Valid ∧ n.text = s := by
  obtain ⟨m, a, x, rfl, hm, ha, hx⟩ := h
  obtain ⟨sg, rfl⟩ : ∃ sg : Option Bool, m = signText sg := by
    rcases hm with rfl | rfl | rfl
    · exact ⟨none, rfl⟩
    · exact ⟨some true, rfl⟩
    · exact ⟨some false, rfl⟩
  obtain ⟨i, fr, hne, rfl⟩ : ∃ (i : List (Fin 10)) (fr : Option (List (Fin 10))), i ++ fr.getD [] ≠ [] ∧
      a = i.map digitChar ++ (match fr with | none => [] | some ds => '.'.toNat :: ds.map digitChar) := by
    rcases ha with ⟨h0, ha⟩ | ⟨a, b, rfl, ha, hb0, hb⟩ | ⟨a, rfl, ha0, ha⟩
    · obtain ⟨ds, rfl⟩ := all_digits ha
      exact ⟨ds, none, by simpa using h0, by simp⟩
    · obtain ⟨ds, rfl⟩ := all_digits ha
      obtain ⟨es, rfl⟩ := all_digits hb
      exact ⟨ds, some es, by simpa using fun _ => by simpa using hb0, rfl⟩
    · obtain ⟨ds, rfl⟩ := all_digits ha
      exact ⟨ds, some [], by simpa using ha0, by simp⟩
  obtain ⟨ex, hex, rfl⟩ : ∃ ex : Option ExpPart, (∀ e, ex = some e → e.digits ≠ []) ∧
      x = match ex with | none => [] | some e => e.text := by
    rcases hx with rfl | ⟨e, sg, cs, rfl, he, hsg, hne, hcs⟩
    · exact ⟨none, (by intro e he; cases he), rfl⟩
    · obtain ⟨ds, rfl⟩ := all_digits hcs
      have hds : ds ≠ [] := by simpa using hne
      obtain ⟨o, rfl⟩ : ∃ o : Option Bool, sg = signText o := by
        rcases hsg with rfl | rfl | rfl
        · exact ⟨none, rfl⟩
        · exact ⟨some true, rfl⟩
        · exact ⟨some false, rfl⟩
      rcases he with rfl | rfl
      · exact ⟨some ⟨false, o, ds⟩, (by intro e he; cases he; exact hds), rfl⟩
      · exact ⟨some ⟨true, o, ds⟩, (by intro e he; cases he; exact hds), rfl⟩
  refine ⟨⟨sg, i, fr, ex⟩, ⟨hne, hex⟩, ?_⟩
  unfold Numeral.text Numeral.mantText Numeral.expText
  simp only [List.append_assoc]
  cases fr <;> cases ex <;> rfl

/-- The characters of a number. -/
theorem xsd_chars {s : List Nat} (h : XsdNumber s) : 'n'.toNat ∉ s := by
  have hdig : ∀ a, JsonDigits a → 'n'.toNat ∉ a := fun a ha hn => absurd (ha.2 _ hn) (by unfold JsonDigit; decide)
  have hdig' : ∀ a : List Nat, (∀ c ∈ a, JsonDigit c) → 'n'.toNat ∉ a := fun a ha hn => absurd (ha _ hn) (by unfold JsonDigit; decide)
  have hsg : ∀ m, OptSign m → 'n'.toNat ∉ m := by
    rintro m (rfl | rfl | rfl) <;> decide
  obtain ⟨m, a, x, rfl, hm, ha, hx⟩ := h
  rw [List.mem_append, List.mem_append]
  rintro (h | h | h)
  · exact hsg m hm h
  · rcases ha with ha | ⟨a, b, rfl, ha, hb⟩ | ⟨a, rfl, ha⟩
    · exact hdig a ha h
    · rcases List.mem_append.mp h with h | h
      · exact hdig' a ha h
      · rcases List.mem_cons.mp h with h | h
        · exact absurd h (by decide)
        · exact hdig b hb h
    · rcases List.mem_append.mp h with h | h
      · exact hdig a ha h
      · exact absurd h (by decide)
  · rcases hx with rfl | ⟨e, sg, cs, rfl, he, hs, hc⟩
    · cases h
    · rcases List.mem_cons.mp h with h | h
      · rcases he with rfl | rfl <;> exact absurd h (by decide)
      · rcases List.mem_append.mp h with h | h
        · exact hsg sg hs h
        · exact hdig cs hc h

/-- What is printed for a value that is not finite. -/
theorem printed_word {T : FloatType} {bits : Nat} {s : List Nat} (hb : bits < 2 ^ T.W) (hs : Prints T bits s)
    (hf : ¬ IsFinite T bits) : s = chars "nan" ∨ s = chars "inf" ∨ s = chars "-inf" := by
  obtain ⟨c1, c2, -⟩ := C08_ftoa_special T bits
  by_cases hnan : IsNaN T bits
  · exact Or.inl (prints_unique hs (c1 hnan))
  · have he : expField T bits = expMax T := by
      by_contra he; exact hf ⟨hb, he⟩
    have hinf : IsInf T bits := by
      refine ⟨hb, he, ?_⟩
      by_contra h0; exact hnan ⟨hb, he, h0⟩
    have := prints_unique hs (c2 hinf)
    split_ifs at this
    · exact Or.inr (Or.inr this)
    · exact Or.inr (Or.inl this)

/-- The printed text of a finite number: a possible minus sign and a constant of C, and of which kind it is. -/
theorem printed_const {T : FloatType} {bits : Nat} {s : List Nat} (hs : Prints T bits s) (hf : IsFinite T bits) :
    ∃ m i f x, s = m ++ (i ++ f ++ x) ∧ (m = [] ∨ m = ['-'.toNat]) ∧ JsonInt i ∧ (f = [] ∨ JsonFrac f) ∧ (x = [] ∨ JsonExp x) ∧
      ((∃ k : Nat, k ≤ 2 ^ T.p ∧ |value T bits| = k) → f = [] ∧ x = []) ∧
      ((¬ ∃ z : ℤ, value T bits = z) → ¬ (f = [] ∧ x = [])) := by
  obtain ⟨n, h1, h2⟩ := C04_ftoa_grammar T bits hf
  obtain ⟨m, i, f, x, e, hm, hi, hfr, hx, hiff⟩ := printed_parts h2
  refine ⟨m, i, f, x, by rw [prints_unique hs h1, e]; simp, hm, hi, hfr, hx, ?_, ?_⟩
  · rintro ⟨k, hk, hv⟩
    rw [← hiff]
    by_cases hk0 : k = 0
    · subst hk0
      have h0 : value T bits = 0 := by rw [← abs_eq_zero, hv]; norm_num
      have h3 := (C08_ftoa_special T bits).2.2 hf h0
      have h4 : n = ⟨none, [0], none, none⟩ := numeral_text_inj _ _ (by rw [prints_unique h1 h3]; rfl)
      rw [h4]; exact ⟨rfl, rfl⟩
    · obtain ⟨l, -, -, h3⟩ := C46_integers T bits k hf (by omega) hk hv
      have h4 : n = ⟨if value T bits < 0 then some true else none, l, none, none⟩ := numeral_text_inj _ _ (by
        rw [prints_unique h1 h3]
        unfold Numeral.text Numeral.mantText Numeral.expText
        split_ifs <;> simp [signText])
      rw [h4]; exact ⟨rfl, rfl⟩
  · intro hw hfx
    have h0 : value T bits ≠ 0 := fun h0 => hw ⟨0, by rw [h0]; simp⟩
    obtain ⟨g1, g2⟩ := hiff.mpr hfx
    exact hw (whole_of_digits hf h0 h1 g1 g2)

theorem cFloating_of {i f x : List Nat} (hi : JsonInt i) (hf : f = [] ∨ JsonFrac f) (hx : x = [] ∨ JsonExp x)
    (h : ¬ (f = [] ∧ x = [])) : CFloating (i ++ f ++ x) := by
  rcases hf with rfl | ⟨cs, rfl, hcs⟩
  · rcases hx with rfl | hx
    · exact absurd ⟨rfl, rfl⟩ h
    · exact Or.inr ⟨i, x, by simp, jsonInt_digits hi, hx⟩
  · exact Or.inl ⟨i ++ '.'.toNat :: cs, x, rfl, Or.inl ⟨i, cs, rfl, (jsonInt_digits hi).2, hcs⟩, hx⟩

/-- **C103, source code.** The text of a finite number is, after a possible minus sign, a decimal integer constant or a
floating constant of C and C++: for zero and whole numbers up to `2^p` (2^53, 2^24) an integer constant, for numbers that
are not whole a floating constant.  The text of a NaN or an infinity is neither. -/
theorem C103_source_code (T : FloatType) (bits : Nat) (s : List Nat) (hb : bits < 2 ^ T.W) (hs : Prints T bits s) :
    (IsFinite T bits → ∃ m lit, s = m ++ lit ∧ (m = [] ∨ m = ['-'.toNat]) ∧ (CInteger lit ∨ CFloating lit) ∧
      ((∃ k : Nat, k ≤ 2 ^ T.p ∧ |value T bits| = k) → CInteger lit) ∧
      ((¬ ∃ z : ℤ, value T bits = z) → CFloating lit)) ∧
    (¬ IsFinite T bits → ¬ ∃ m lit, s = m ++ lit ∧ OptSign m ∧ (CInteger lit ∨ CFloating lit)) := by
  constructor
  · intro hf
    obtain ⟨m, i, f, x, e, hm, hi, hfr, hx, h1, h2⟩ := printed_const hs hf
    refine ⟨m, i ++ f ++ x, e, hm, ?_, ?_, fun hw => cFloating_of hi hfr hx (h2 hw)⟩
    · by_cases h : f = [] ∧ x = []
      · rw [h.1, h.2]; left; simpa [CInteger] using hi
      · exact Or.inr (cFloating_of hi hfr hx h)
    · intro hk
      obtain ⟨g1, g2⟩ := h1 hk
      rw [g1, g2]
      simpa [CInteger] using hi
  · rintro hf ⟨m, lit, rfl, hm, hl⟩
    have := xsd_chars (cConst_xsd hm hl)
    rcases printed_word hb hs hf with h | h | h <;> (rw [h] at this; exact this (by decide))

/-- **C103, TOML.** The text of every value is a TOML integer or float: of a whole number up to `2^p` an integer, of a
number that is not whole, a NaN or an infinity a float. -/
theorem C103_toml (T : FloatType) (bits : Nat) (s : List Nat) (hb : bits < 2 ^ T.W) (hs : Prints T bits s) :
    (TomlInt s ∨ TomlFloat s) ∧
    ((∃ k : Nat, IsFinite T bits ∧ k ≤ 2 ^ T.p ∧ |value T bits| = k) → TomlInt s) ∧
    ((IsFinite T bits → ¬ ∃ z : ℤ, value T bits = z) → TomlFloat s) := by
  by_cases hf : IsFinite T bits
  · obtain ⟨m, i, f, x, e, hm, hi, hfr, hx, h1, h2⟩ := printed_const hs hf
    have hfloat : ¬ (f = [] ∧ x = []) → TomlFloat s := by
      intro h
      have hx' : x = [] ∨ TomlExp x := hx.imp_right tomlExp_of
      rcases hfr with rfl | ⟨cs, rfl, hcs⟩
      · rcases hx' with rfl | hx'
        · exact absurd ⟨rfl, rfl⟩ h
        · exact Or.inl ⟨m ++ i, x, by rw [e]; simp, tomlInt_of hm hi, hx'⟩
      · exact Or.inr (Or.inl ⟨m ++ i, cs, x, by rw [e]; simp, tomlInt_of hm hi, tomlDigits_of hcs, hx'⟩)
    have hint : f = [] ∧ x = [] → TomlInt s := by
      rintro ⟨rfl, rfl⟩
      rw [e]
      simpa using tomlInt_of hm hi
    refine ⟨?_, fun ⟨k, _, hk⟩ => hint (h1 ⟨k, hk⟩), fun h => hfloat (h2 (h hf))⟩
    by_cases h : f = [] ∧ x = []
    · exact Or.inl (hint h)
    · exact Or.inr (hfloat h)
  · have : TomlFloat s := by
      rcases printed_word hb hs hf with rfl | rfl | rfl
      · exact Or.inr (Or.inr ⟨[], Or.inl rfl, Or.inr rfl⟩)
      · exact Or.inr (Or.inr ⟨[], Or.inl rfl, Or.inl rfl⟩)
      · exact Or.inr (Or.inr ⟨['-'.toNat], Or.inr (Or.inl rfl), Or.inl rfl⟩)
    exact ⟨Or.inr this, fun ⟨_, h, _⟩ => absurd h hf, fun _ => this⟩

/-- **C103, XML Schema.** The text is in the lexical space of `xs:double` (and `xs:float`) if and only if the value is
finite: `NaN` and `INF` are written otherwise there. -/
theorem C103_xsd (T : FloatType) (bits : Nat) (s : List Nat) (hb : bits < 2 ^ T.W) (hs : Prints T bits s) :
    XsdDouble s ↔ IsFinite T bits := by
  constructor
  · intro h
    by_contra hf
    rcases h with h | ⟨m, hm, rfl⟩ | rfl
    · have := xsd_chars h
      rcases printed_word hb hs hf with h | h | h <;> (rw [h] at this; exact this (by decide))
    · rcases hm with rfl | rfl | rfl <;>
        (rcases printed_word hb hs hf with h | h | h <;> exact absurd h (by decide))
    · rcases printed_word hb hs hf with h | h | h <;> exact absurd h (by decide)
  · intro hf
    obtain ⟨m, lit, rfl, hm, hl, -⟩ := (C103_source_code T bits s hb hs).1 hf
    exact Or.inl (cConst_xsd (by rcases hm with rfl | rfl <;> simp [OptSign]) hl)

/-- **C103, reading.** A C or C++ constant (decimal integer or floating) with or without sign, or any other number of XML
Schema, of at most 2049 characters and with an exponent below `10^4`, followed by a character that is no digit, point, `e` or
`E` - a suffix `f` or `L`, an operator, a bracket -, is read without undefined behaviour, and unless the fallback is asked
the end pointer is right after it (after a zero with an exponent part: before the exponent part). -/
theorem C103_read (T : FloatType) (fb : Fallback) (errno : Nat) (mem : List Nat) (str : Nat) (s : List Nat) (c : Nat)
    (R : List Nat) (hs : XsdNumber s) (hl : s.length ≤ 2049) (hm : mem.drop str = s ++ c :: R)
    (hc : ¬ JsonDigit c ∧ c ∉ ['.'.toNat, 'e'.toNat, 'E'.toNat]) :
    ∃ n : Numeral, n.Valid ∧ n.text = s ∧ ((∀ e, n.exp = some e → digitsVal e.digits < 10 ^ 4) →
      ∃ r, atof T fb errno mem str = .ok r ∧
        (Delegated T fb errno mem str r ∨ (r.fellBack = false ∧ r.errno = errno ∧
          r.strEnd = str + if n.absValue = 0 then s.length - n.expText.length else s.length))) := by
  obtain ⟨n, hv, rfl⟩ := numeral_of_xsd hs
  refine ⟨n, hv, rfl, ?_⟩
  intro he
  have hlen : n.text.length = (signText n.sign ++ n.mantText).length + n.expText.length := by
    unfold Numeral.text; rw [List.length_append]
  simp only [List.mem_cons, List.not_mem_nil, or_false, not_or] at hc
  have hat : NumeralAt mem str n := by
    refine ⟨hv, ⟨c, R, hm, hc.1, fun _ => ⟨hc.2.2.1, hc.2.2.2, fun h => absurd h hc.2.1⟩, fun _ => hc.2.1⟩, by omega, ?_,
      fun e hx => readable_of_lt (he e hx)⟩
    intro e hx
    have : n.expText = e.text := by unfold Numeral.expText; rw [hx]
    rw [this] at hlen
    omega
  obtain ⟨r, r1, r2⟩ := C28_consumes T fb errno mem str n hat
  refine ⟨r, r1, ?_⟩
  rw [show n.text.length - n.expText.length = (signText n.sign ++ n.mantText).length by omega]
  exact r2

/-- **C103, refuted.** That the text of a `double` is a floating constant: of 3.0 it is the integer constant 3, so `1 / x`
is computed in integers if the text is put in the place of `x`.  And that atof reads all numbers of TOML: of 1_000 it reads
1.  The words of XML Schema are read, however. -/
theorem C103_refuted (fb : Fallback) :
    (toBasicString .double 0x4008000000000000 = .ok (chars "3") ∧ ¬ CFloating (chars "3")) ∧
    (TomlInt (chars "1_000") ∧ atof .double fb 0 (chars "1_000" ++ [0]) 0 = .ok ⟨0x3FF0000000000000, .success, 1, 0, false⟩) ∧
    atof .double fb 0 (chars "-INF" ++ [0]) 0 = .ok ⟨0xFFF0000000000000, .success, 4, 0, false⟩ ∧
    atof .double fb 0 (chars "NaN" ++ [0]) 0 = .ok ⟨0x7FF8000000000000, .success, 3, 0, false⟩ := by
  have h1 : krosh .double (chars "1_000" ++ [0]) 0 = .ok ⟨0x3FF0000000000000, 1, .success, true⟩ := by decide +kernel
  have h2 : krosh .double (chars "-INF" ++ [0]) 0 = .ok ⟨0xFFF0000000000000, 4, .success, true⟩ := by decide +kernel
  have h3 : krosh .double (chars "NaN" ++ [0]) 0 = .ok ⟨0x7FF8000000000000, 3, .success, true⟩ := by decide +kernel
  refine ⟨⟨by decide +kernel, cInteger_not_cFloating (Or.inr ⟨'3'.toNat, [], rfl, by decide, by decide, by simp⟩)⟩,
    ⟨⟨[], chars "1_000", rfl, Or.inl rfl, ?_, Or.inr (by decide)⟩, ?_⟩, ?_, ?_⟩
  · have d : ∀ c, c = '0'.toNat ∨ c = '1'.toNat → JsonDigit c := by
      rintro c (rfl | rfl) <;> (unfold JsonDigit; decide)
    exact .underscore (d _ (Or.inr rfl)) (.digit (d _ (Or.inl rfl)) (.digit (d _ (Or.inl rfl)) (.one (d _ (Or.inl rfl)))))
  · rw [atof_of_krosh h1 (by decide)]; rfl
  · rw [atof_of_krosh h2 (by decide)]; rfl
  · rw [atof_of_krosh h3 (by decide)]; rfl

/-- The hypotheses are met: printed texts of the three kinds, and the constant `.5e1f` in an expression. -/
example : Prints .double 0x4008000000000000 (chars "3") ∧ Prints .double 0xBFF8000000000000 (chars "-1.5") ∧
    Prints .double 0x7FF8000000000000 (chars "nan") :=
  ⟨prints_eval (by decide) (by decide +kernel), prints_eval (by decide) (by decide +kernel),
    prints_eval (by decide) (by decide +kernel)⟩

example : CFloating (chars ".5e1") ∧ (chars "2*.5e1f;" ++ [0]).drop 2 = chars ".5e1" ++ 'f'.toNat :: chars ";" ++ [0] ∧
    ¬ JsonDigit 'f'.toNat ∧ 'f'.toNat ∉ ['.'.toNat, 'e'.toNat, 'E'.toNat] := by
  refine ⟨Or.inl ⟨chars ".5", chars "e1", rfl, Or.inl ⟨[], chars "5", rfl, by simp, by decide, ?_⟩,
    Or.inr ⟨'e'.toNat, [], chars "1", rfl, Or.inl rfl, Or.inl rfl, by decide, ?_⟩⟩, rfl, ?_, by decide⟩
  all_goals (unfold JsonDigit; decide)

end Floaxie
