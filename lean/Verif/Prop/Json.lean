import Verif.Spec.Json
import Verif.Prop.Ftoa
import Verif.Prop.Spelling

/-!
# JSON numbers (C64)
-/

namespace Floaxie
open Spec FloatType

theorem jsonDigit_iff {c : Nat} : JsonDigit c ↔ ∃ d : Fin 10, c = digitChar d := by
  unfold JsonDigit digitChar
  constructor
  · rintro ⟨h1, h2⟩
    have e1 : '0'.toNat = 48 := rfl
    have e2 : '9'.toNat = 57 := rfl
    exact ⟨⟨c - 48, by omega⟩, by simp only; omega⟩
  · rintro ⟨d, rfl⟩
    have e1 : '0'.toNat = 48 := rfl
    have e2 : '9'.toNat = 57 := rfl
    have := d.isLt
    omega

theorem jsonDigit_char (d : Fin 10) : JsonDigit (digitChar d) := jsonDigit_iff.mpr ⟨d, rfl⟩

theorem all_digits {s : List Nat} (h : ∀ c ∈ s, JsonDigit c) : ∃ ds : List (Fin 10), s = ds.map digitChar := by
  induction s with
  | nil => exact ⟨[], rfl⟩
  | cons c s ih =>
    obtain ⟨ds, rfl⟩ := ih (fun x hx => h x (List.mem_cons_of_mem _ hx))
    obtain ⟨d, rfl⟩ := jsonDigit_iff.mp (h c (List.mem_cons_self ..))
    exact ⟨d :: ds, rfl⟩

theorem jsonDigits_map {ds : List (Fin 10)} (h : ds ≠ []) : JsonDigits (ds.map digitChar) :=
  ⟨by simpa using h, by
    intro c hc
    obtain ⟨d, -, rfl⟩ := List.mem_map.mp hc
    exact jsonDigit_char d⟩

/-- Printed numerals are JSON numbers. -/
theorem json_of_shape {n : Numeral} (h : PrintedShape n) : JsonNumber n.text := by
  refine ⟨signText n.sign, n.int.map digitChar, (match n.frac with | none => [] | some ds => '.'.toNat :: ds.map digitChar), n.expText,
    ?_, ?_, ?_, ?_, ?_⟩
  · unfold Numeral.text Numeral.mantText; simp only [List.append_assoc]; cases n.frac <;> rfl
  · have := h.sign
    cases hs : n.sign with
    | none => exact Or.inl rfl
    | some b => cases b with
      | true => exact Or.inr rfl
      | false => exact absurd hs this
  · rcases h.noLeadingZero with h0 | h0
    · rw [h0]; exact Or.inl rfl
    · cases hi : n.int with
      | nil => exact absurd hi h.int
      | cons d ds =>
        rw [hi] at h0
        have hd : d ≠ 0 := by simpa using h0
        refine Or.inr ⟨digitChar d, ds.map digitChar, rfl, ?_, (jsonDigit_char d).2, ?_⟩
        · have : d.val ≠ 0 := fun h => hd (Fin.ext h)
          unfold digitChar
          show 49 ≤ 48 + d.val
          omega
        · intro c hc
          obtain ⟨e, -, rfl⟩ := List.mem_map.mp hc
          exact jsonDigit_char e
  · have := h.frac
    cases hf : n.frac with
    | none => exact Or.inl rfl
    | some ds =>
      have hne : ds ≠ [] := by rintro rfl; exact this hf
      exact Or.inr ⟨_, rfl, jsonDigits_map hne⟩
  · unfold Numeral.expText
    cases hx : n.exp with
    | none => exact Or.inl rfl
    | some e =>
      obtain ⟨h1, h2, -, h3⟩ := h.exp e hx
      have hne : e.digits ≠ [] := by
        intro h0; rw [h0] at h3; simp at h3
      refine Or.inr ⟨_, signText e.sign, e.digits.map digitChar, rfl, ?_, ?_, jsonDigits_map hne⟩
      · rw [h1]; exact Or.inl rfl
      · rcases e.sign with _ | _ | _
        · exact Or.inl rfl
        · exact Or.inr (Or.inr rfl)
        · exact Or.inr (Or.inl rfl)

/-- JSON numbers are numerals of the input grammar. -/
theorem numeral_of_json {s : List Nat} (h : JsonNumber s) : ∃ n : Numeral, n.Valid ∧ n.text = s := by
  obtain ⟨m, i, f, x, rfl, hm, hi, hf, hx⟩ := h
  have h1 : ∃ sg : Option Bool, m = signText sg := by
    rcases hm with rfl | rfl
    · exact ⟨none, rfl⟩
    · exact ⟨some true, rfl⟩
  have h2 : ∃ ds : List (Fin 10), ds ≠ [] ∧ i = ds.map digitChar := by
    have : ∃ ds : List (Fin 10), i = ds.map digitChar := by
      apply all_digits
      rcases hi with rfl | ⟨c, cs, rfl, a, b, hcs⟩
      · intro c hc; simp at hc; subst hc; exact jsonDigit_char 0
      · intro x hx
        rcases List.mem_cons.mp hx with rfl | hx
        · have e1 : '0'.toNat = 48 := rfl
          have e2 : '1'.toNat = 49 := rfl
          exact ⟨by omega, b⟩
        · exact hcs x hx
    obtain ⟨ds, rfl⟩ := this
    refine ⟨ds, ?_, rfl⟩
    rintro rfl
    rcases hi with hi | ⟨c, cs, hi, -⟩ <;> simp at hi
  have h3 : ∃ fr : Option (List (Fin 10)), f = match fr with | none => [] | some ds => '.'.toNat :: ds.map digitChar := by
    rcases hf with rfl | ⟨cs, rfl, hne, hcs⟩
    · exact ⟨none, rfl⟩
    · obtain ⟨ds, rfl⟩ := all_digits hcs
      exact ⟨some ds, rfl⟩
  have h4 : ∃ ex : Option ExpPart, (∀ e, ex = some e → e.digits ≠ []) ∧ x = match ex with | none => [] | some e => e.text := by
    rcases hx with rfl | ⟨e, sg, cs, rfl, he, hsg, hne, hcs⟩
    · exact ⟨none, (by intro e he; cases he), rfl⟩
    · obtain ⟨ds, rfl⟩ := all_digits hcs
      have hds : ds ≠ [] := by simpa using hne
      have hsg' : ∃ o : Option Bool, sg = signText o := by
        rcases hsg with rfl | rfl | rfl
        · exact ⟨none, rfl⟩
        · exact ⟨some true, rfl⟩
        · exact ⟨some false, rfl⟩
      obtain ⟨o, rfl⟩ := hsg'
      rcases he with rfl | rfl
      · exact ⟨some ⟨false, o, ds⟩, (by intro e he; cases he; exact hds), rfl⟩
      · exact ⟨some ⟨true, o, ds⟩, (by intro e he; cases he; exact hds), rfl⟩
  obtain ⟨sg, rfl⟩ := h1
  obtain ⟨ds, hne, rfl⟩ := h2
  obtain ⟨fr, rfl⟩ := h3
  obtain ⟨ex, hex, rfl⟩ := h4
  refine ⟨⟨sg, ds, fr, ex⟩, ⟨by simp [hne], hex⟩, ?_⟩
  unfold Numeral.text Numeral.mantText Numeral.expText
  simp only [List.append_assoc]
  cases fr <;> cases ex <;> rfl

/-- **C64, writing.** The text `ftoa` prints is a JSON number if and only if the
value is finite. -/
theorem C64_json_printed (T : FloatType) (bits : Nat) (s : List Nat) (hb : bits < 2 ^ T.W) (hs : Prints T bits s) :
    JsonNumber s ↔ IsFinite T bits := by
  constructor
  · intro hj
    by_contra hf
    obtain ⟨n, -, hn⟩ := numeral_of_json hj
    have hcases : s = chars "nan" ∨ s = chars "inf" ∨ s = chars "-inf" := by
      obtain ⟨c1, c2, -⟩ := C08_ftoa_special T bits
      by_cases hnan : IsNaN T bits
      · exact Or.inl (prints_unique hs (c1 hnan))
      · have hinf : IsInf T bits := by
          have he : expField T bits = expMax T := by
            by_contra he; exact hf ⟨hb, he⟩
          refine ⟨hb, he, ?_⟩
          by_contra h0; exact hnan ⟨hb, he, h0⟩
        have := prints_unique hs (c2 hinf)
        split_ifs at this
        · exact Or.inr (Or.inr this)
        · exact Or.inr (Or.inl this)
    obtain ⟨m, i, f, x, rfl, hm, hi, -⟩ := hj
    have hi' : ∃ c cs, i = c :: cs ∧ '0'.toNat ≤ c ∧ c ≤ '9'.toNat := by
      rcases hi with rfl | ⟨c, cs, rfl, a, b, -⟩
      · exact ⟨_, [], rfl, by decide, by decide⟩
      · exact ⟨c, cs, rfl, le_trans (by decide) a, b⟩
    obtain ⟨c, cs, rfl, a, b⟩ := hi'
    have e1 : '0'.toNat = 48 := rfl
    have e2 : '9'.toNat = 57 := rfl
    rcases hm with rfl | rfl
    · rcases hcases with h | h | h <;>
      · simp only [List.nil_append, List.cons_append, chars] at h
        have := congrArg List.head? h
        simp at this
        omega
    · rcases hcases with h | h | h <;>
      · simp only [List.cons_append, List.nil_append] at h
        have h1 := congrArg List.head? h
        have h2 := congrArg (fun l => l.tail.head?) h
        simp [chars] at h1 h2 <;> omega
  · intro hf
    obtain ⟨n, h1, h2⟩ := C04_ftoa_grammar T bits hf
    rw [prints_unique hs h1]
    exact json_of_shape h2

theorem endsAt_delimiter {n : Numeral} {c : Nat} (h : JsonDelimiter c) : EndsAt n c := by
  unfold JsonDelimiter at h
  have : ¬ ('0'.toNat ≤ c ∧ c ≤ '9'.toNat) ∧ c ≠ 'e'.toNat ∧ c ≠ 'E'.toNat ∧ c ≠ '.'.toNat := by
    simp only [List.mem_cons, List.not_mem_nil, or_false] at h
    rcases h with rfl | rfl | rfl | rfl | rfl | rfl | rfl | rfl <;> decide
  exact ⟨this.1, fun _ => ⟨this.2.1, this.2.2.1, fun h => absurd h this.2.2.2⟩, fun _ => this.2.2.2⟩

/-- **C64, reading.** A JSON number in a JSON text, of at most 2049 characters and with
an exponent below `10^4`, is read without undefined behaviour, and unless the
fallback is asked the end pointer is right after it - except for a zero with an
exponent part, where it is before the exponent part. -/
theorem C64_json_read (T : FloatType) (fb : Fallback) (errno : Nat) (mem : List Nat) (str : Nat) (s : List Nat) (c : Nat)
    (R : List Nat) (hj : JsonNumber s) (hl : s.length ≤ 2049) (hm : mem.drop str = s ++ c :: R) (hc : JsonDelimiter c) :
    ∃ n : Numeral, n.Valid ∧ n.text = s ∧ ((∀ e, n.exp = some e → digitsVal e.digits < 10 ^ 4) →
      ∃ r, atof T fb errno mem str = .ok r ∧
        (Delegated T fb errno mem str r ∨ (r.fellBack = false ∧ r.errno = errno ∧
          r.strEnd = str + if n.absValue = 0 then s.length - n.expText.length else s.length))) := by
  obtain ⟨n, hv, rfl⟩ := numeral_of_json hj
  refine ⟨n, hv, rfl, ?_⟩
  intro he
  have hlen : n.text.length = (signText n.sign ++ n.mantText).length + n.expText.length := by
    unfold Numeral.text; rw [List.length_append]
  have hat : NumeralAt mem str n := by
    refine ⟨hv, ⟨c, R, hm, endsAt_delimiter hc⟩, by omega, ?_, fun e hx => readable_of_lt (he e hx)⟩
    intro e hx
    have : n.expText = e.text := by unfold Numeral.expText; rw [hx]
    rw [this] at hlen
    omega
  obtain ⟨r, r1, r2⟩ := C28_consumes T fb errno mem str n hat
  refine ⟨r, r1, ?_⟩
  rw [show n.text.length - n.expText.length = (signText n.sign ++ n.mantText).length by omega]
  exact r2

/-- The first number of `[-12.5e3,7]`. -/
example : JsonNumber (chars "-12.5e3") ∧ (chars "[-12.5e3,7]" ++ [0]).drop 1 = chars "-12.5e3" ++ ','.toNat :: (chars "7]" ++ [0]) ∧
    JsonDelimiter ','.toNat :=
  ⟨⟨chars "-", chars "12", chars ".5", chars "e3", by decide, Or.inr (by decide),
    Or.inr ⟨'1'.toNat, chars "2", by decide, by decide, by decide, by unfold JsonDigit; decide⟩,
    Or.inr ⟨chars "5", by decide, by decide, by unfold JsonDigit; decide⟩,
    Or.inr ⟨'e'.toNat, [], chars "3", by decide, Or.inl rfl, Or.inl rfl, by decide, by unfold JsonDigit; decide⟩⟩, by decide,
    by unfold JsonDelimiter; decide⟩

/-- Both kinds of values exist. -/
example : Prints .double 0x40C81C8000000000 (chars "12345") ∧ Prints .double 0xFFF0000000000000 (chars "-inf") ∧
    IsFinite .double 0x40C81C8000000000 ∧ ¬ IsFinite .double 0xFFF0000000000000 :=
  ⟨prints_eval (by decide) (by decide +kernel), prints_eval (by decide) (by decide +kernel), ⟨by decide, by decide⟩,
    fun h => h.2 (by decide)⟩

/-- The exception: of the JSON text `[0e5]` only `0` is read. -/
example (fb : Fallback) : JsonNumber (chars "0e5") ∧
    atof .double fb 0 (chars "0e5]" ++ [0]) 0 = .ok ⟨0, .success, 1, 0, false⟩ := by
  have h : krosh .double (chars "0e5]" ++ [0]) 0 = .ok ⟨0, 1, .success, true⟩ := by decide +kernel
  exact ⟨⟨[], chars "0", [], chars "e5", by decide, Or.inl rfl, Or.inl (by decide), Or.inl rfl,
    Or.inr ⟨'e'.toNat, [], chars "5", by decide, Or.inl rfl, Or.inl rfl, by decide, by unfold JsonDigit; decide⟩⟩,
    atof_of_krosh h (by decide)⟩

end Floaxie
