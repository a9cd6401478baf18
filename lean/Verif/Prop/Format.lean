import Verif.Proof.PrettifyGen
import Verif.Prop.Ftoa
import Verif.Proof.Frame

/-!
# C55: formatting of arbitrary digit strings
-/

namespace Floaxie

open Spec FloatType

theorem fmt_shapeT (th : Int) (neg : Bool) (ds : List (Fin 10)) (k : Int) (hne : ds ≠ []) (hh : ds.head hne ≠ 0)
    (hK : ((ds.length : Int) + k - 1).natAbs < 1000) :
    PrintedShape (fmtNumeralT th neg ds k) := by
  have hl : 0 < ds.length := List.length_pos_iff.mpr hne
  have hx : (expDigits ((ds.length : Int) + k - 1).natAbs).length = 2 ∨
      (expDigits ((ds.length : Int) + k - 1).natAbs).length = 3 ∧
      (expDigits ((ds.length : Int) + k - 1).natAbs).head? ≠ some 0 := by
    unfold expDigits
    split_ifs with h
    · right
      refine ⟨by simp, ?_⟩
      simp only [List.cons_append, List.head?_cons, ne_eq, Option.some.injEq]
      intro h2
      have := congrArg Fin.val h2
      simp at this
      omega
    · left; simp
  have hsg : (if neg = true then some true else none : Option Bool) ≠ some false := by
    split_ifs <;> simp
  obtain ⟨c, ct, rfl⟩ := List.exists_cons_of_ne_nil hne
  simp only [List.head_cons] at hh
  have hsg2 : ∀ b : Prop, [Decidable b] → (if b then some true else none : Option Bool) ≠ some false := by
    intro b _; split_ifs <;> simp
  unfold fmtNumeralT
  dsimp only
  by_cases h1 : max ((((c :: ct).length : Nat) : Int) + k) (-k) ≤ th
  · rw [if_pos h1]
    by_cases h2 : 0 ≤ k
    · rw [if_pos h2]
      refine ⟨hsg, by simp, Or.inr (by simpa using hh), by simp, by simp⟩
    · rw [if_neg h2]
      by_cases h3 : 0 < (((c :: ct).length : Nat) : Int) + k
      · rw [if_pos h3]
        obtain ⟨d, hd⟩ : ∃ d, ((((c :: ct).length : Nat) : Int) + k).toNat = d + 1 :=
          ⟨((((c :: ct).length : Nat) : Int) + k).toNat - 1, by omega⟩
        rw [hd]
        refine ⟨hsg, by simp, Or.inr (by simpa using hh), ?_, by simp⟩
        simp only [List.drop_succ_cons, ne_eq, Option.some.injEq, List.drop_eq_nil_iff, not_le]
        simp only [List.length_cons] at hd ⊢
        omega
      · rw [if_neg h3]
        exact ⟨hsg, by simp, Or.inl rfl, by simp, by simp⟩
  · rw [if_neg h1]
    refine ⟨hsg, by simp, Or.inr (by simpa using hh), ?_, ?_⟩
    · dsimp only
      split_ifs with h4
      · simp only [List.drop_succ_cons, List.drop_zero, ne_eq, Option.some.injEq]
        rintro rfl; simp at h4
      · simp
    · intro e he
      simp only [Option.some.injEq] at he
      subst he
      exact ⟨rfl, hsg2 _, by simp, hx⟩

theorem fmt_digitsT (th : Int) (neg : Bool) (ds : List (Fin 10)) (k : Int) (hne : ds ≠ []) :
    ∃ i j, (fmtNumeralT th neg ds k).int ++ (fmtNumeralT th neg ds k).fracDigits =
      List.replicate i 0 ++ ds ++ List.replicate j 0 := by
  have hl : 0 < ds.length := List.length_pos_iff.mpr hne
  unfold fmtNumeralT Numeral.fracDigits
  dsimp only
  generalize (if neg = true then some true else none : Option Bool) = sg
  generalize (if (ds.length : Int) + k - 1 < 0 then some true else none : Option Bool) = sg2
  split_ifs with h1 h2 h3 h4
  · exact ⟨0, k.toNat, by simp⟩
  · exact ⟨0, 0, by simp⟩
  · refine ⟨(-((ds.length : Int) + k)).toNat + 1, 0, ?_⟩
    simp [List.replicate_succ]
  · exact ⟨0, 0, by simp [-List.drop_one]⟩
  · exact ⟨0, 0, by simp [List.take_of_length_le (show ds.length ≤ 1 by omega)]⟩


/-! ## C55 -/

/-- **C55.** `prettify` on any digits `ds` (the first one non-zero), any decimal
exponent `k` and any threshold: there is a numeral of the documented shape, with
the digits `ds` padded with zeros, of value `ds * 10^k`, in exponential notation
exactly when more than `threshold` places are needed on a side of the decimal
point; and in a buffer that has room for it, `prettify` replaces the digits by
the text of that numeral and a terminator, returns its length, and changes
nothing before or behind. -/
theorem C55_prettify (threshold : Nat) (ds : List (Fin 10)) (k : Int) (hne : ds ≠ [])
    (hh : ds.head? ≠ some 0) (hk : k.natAbs < 1000)
    (hK : ((ds.length : Int) + k - 1).natAbs < 1000) :
    ∃ n : Numeral, n.sign = none ∧ PrintedShape n ∧ n.value = (digitsVal ds : ℚ) * 10 ^ k ∧
      (∃ i j, n.int ++ n.fracDigits = List.replicate i 0 ++ ds ++ List.replicate j 0) ∧
      (n.exp ≠ none ↔ (threshold : Int) < max ((ds.length : Int) + k) (-k)) ∧
      ∀ pre rest : List Nat, n.text.length + 1 ≤ ds.length + rest.length →
        prettify threshold (pre ++ ds.map digitChar ++ rest) pre.length ds.length k =
          .ok (pre ++ n.text ++ 0 :: (ds.map digitChar ++ rest).drop (n.text.length + 1),
            n.text.length) := by
  have hh' : ds.head hne ≠ 0 := by
    rw [List.head?_eq_some_head hne] at hh
    simpa using hh
  refine ⟨fmtNumeralT threshold false ds k, ?_, fmt_shapeT threshold false ds k hne hh' hK, ?_,
    fmt_digitsT threshold false ds k hne, ?_, ?_⟩
  · unfold fmtNumeralT
    dsimp only
    split_ifs <;> simp_all
  · rw [fmt_valueT threshold false ds k hne hK]; simp
  · unfold fmtNumeralT
    dsimp only
    split_ifs <;> simp <;> omega
  · intro pre rest hlen
    have := prettify_okT threshold ds k hne pre rest hK hk hlen
    unfold fmtBodyT at this
    rw [List.append_assoc, this, List.append_assoc]

/-- The hypotheses of C55 are met, and the notation changes with the threshold. -/
example : (prettify 16 (chars "12345" ++ List.replicate 10 7) 0 5 (-7)).map (fun r => (cstr r.1, r.2)) =
      .ok (chars "0.0012345", 9) ∧
    (prettify 4 (chars "12345" ++ List.replicate 10 7) 0 5 (-7)).map (fun r => (cstr r.1, r.2)) =
      .ok (chars "1.2345e-03", 10) := by
  constructor <;> decide +kernel

/-- Exponents from 1000 on (never reached by `ftoa`) do not fit the three places
`fill_exponent` has: the bound in C55 is needed. -/
example : (prettify 16 (chars "1" ++ List.replicate 10 7) 0 1 1000).map (fun r => (cstr r.1, r.2)) =
    .ok (chars "1e:00", 5) := by decide +kernel

/-! ## C02: the memory needed -/

/-- **C02, converse.** The call stays inside the buffer if and only if the buffer
has room for the text and its terminator: not one character more is needed, not
one less is enough. -/
theorem C02_ftoa_needs (T : FloatType) (bits : Nat) (s : List Nat) (hb : bits < 2 ^ T.W)
    (hs : Prints T bits s) (buf : List Nat) :
    (∃ r, ftoa T bits buf = .ok r) ↔ s.length + 1 ≤ buf.length := by
  constructor
  · rintro ⟨⟨b', n⟩, h⟩
    by_contra hlt
    obtain ⟨hl, hex⟩ := frm_ftoa T bits buf b' n h
    have h1 := hex (List.replicate (s.length + 1) 1)
    dsimp only at h1
    rw [C02_ftoa_exact_fit T bits s hb hs _ (by simp)] at h1
    simp only [Except.ok.injEq, Prod.mk.injEq] at h1
    have h2 := congrArg (fun l => l[s.length]?) h1.1
    rw [List.getElem?_append_right (le_refl _), Nat.sub_self, List.getElem?_append_right (by omega),
      List.getElem?_replicate] at h2
    rw [if_pos (by omega)] at h2
    simp at h2
  · intro h
    exact ⟨_, C02_ftoa_exact_fit T bits s hb hs buf h⟩

/-- One character less than the text needs is not enough: 0.25 needs five. -/
example : (∃ r, ftoa .double 0x3fd0000000000000 (List.replicate 5 7) = .ok r) ∧
    ftoa .double 0x3fd0000000000000 (List.replicate 4 7) = .error .oobWrite := by
  refine ⟨⟨(chars "0.25" ++ [0], 4), ?_⟩, ?_⟩ <;> decide +kernel

/-! ## C57: the longest text -/

/-- **C57.** No text is longer than 24 (`double`) / 19 (`float`) characters, and
texts of that length occur: a buffer of 25 / 20 characters is enough for every
value (`max_buffer_size` is 34 / 24), a smaller one is not. -/
theorem C57_longest (T : FloatType) :
    (∀ bits s, bits < 2 ^ T.W → Prints T bits s → s.length ≤ match T with | .float => 19 | .double => 24) ∧
    ∃ bits s, bits < 2 ^ T.W ∧ Prints T bits s ∧ s.length = match T with | .float => 19 | .double => 24 := by
  constructor
  · intro bits s hb hs
    by_cases hc : absPat T bits = 0 ∨ posInf T ≤ absPat T bits
    · have hsl : (specialText T bits).length ≤ 4 := by unfold specialText; split_ifs <;> simp
      have hp : Prints T bits (specialText T bits) := by
        refine prints_of_ok ?_ ?_ (ftoa_special T bits hc)
        · unfold specialText; split_ifs <;> simp
        · unfold maxBufferSize maxDigits halfDigits10
          cases T <;> simp only [digits10] <;> omega
      rw [prints_unique hs hp]
      cases T <;> dsimp only <;> omega
    · obtain ⟨ds, k, h1, ⟨hne, -⟩, -, -, h6⟩ := ftoa_main T (absPat T bits) (by omega) (by omega)
      rw [prints_unique hs (h6 bits hb rfl), fmt_text, List.length_append]
      have := (fmtBody_len ds k hne).2
      have : (if decide (signBit T bits = 1) = true then ['-'.toNat] else []).length ≤ 1 := by
        split_ifs <;> simp
      cases T <;> simp only [maxSigDigits] at * <;> omega
  · have key : ∀ (U : FloatType) (bits : Nat) (t : List Nat), bits < 2 ^ U.W →
        toBasicString U bits = .ok t → Prints U bits t := by
      intro U bits t hb ht
      obtain ⟨s, h1, h2, -⟩ := C11_to_string U bits hb
      rw [ht, Except.ok.injEq] at h1
      rw [h1]; exact h2
    cases T with
    | float => exact ⟨0xa4e69595, chars "-0.0000000000000001", by decide,
        key _ _ _ (by decide) (by decide +kernel), by decide⟩
    | double => exact ⟨0x8010000000000000, chars "-2.2250738585072016e-308", by decide,
        key _ _ _ (by decide) (by decide +kernel), by decide⟩

end Floaxie
