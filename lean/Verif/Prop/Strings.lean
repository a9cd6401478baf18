import Verif.Spec.Special
import Verif.Prop.Total
import Verif.Prop.RoundTrip

/-!
# The `std::basic_string` interface (C51)
-/

namespace Floaxie

open FloatType Spec

/-- The fallback, if it is asked, reads the text printed for `bits` correctly. -/
def ReadsPrinted (T : FloatType) (bits : Nat) (fb : Fallback) (errno : Nat) : Prop :=
  ∀ n : Numeral, Prints T bits n.text → FallbackReads T fb errno (n.text ++ [0]) 0 n

theorem datum_kinds {T : FloatType} {bits : Nat} (hb : bits < 2 ^ T.W) :
    IsNaN T bits ∨ IsInf T bits ∨ IsFinite T bits := by
  by_cases h1 : expField T bits = expMax T
  · by_cases h2 : fracField T bits = 0
    · exact Or.inr (Or.inl ⟨hb, h1, h2⟩)
    · exact Or.inl ⟨hb, h1, h2⟩
  · exact Or.inr (Or.inr ⟨hb, h1⟩)

theorem fromString_of_krosh {T : FloatType} {fb : Fallback} {errno : Nat} {s : List Nat} {v e : Nat}
    (h : krosh T (s ++ [0]) 0 = .ok ⟨v, e, .success, true⟩) (he : e ≠ 0) :
    fromString T fb errno s = .ok ⟨v, .success, e, errno, false⟩ := by
  unfold fromString
  rw [atof_of_krosh h he, if_pos rfl]

theorem fromString_nan (T : FloatType) (fb : Fallback) (errno : Nat) :
    fromString T fb errno (chars "nan") = .ok ⟨T.qnanBits, .success, 3, errno, false⟩ := by
  apply fromString_of_krosh _ (by decide)
  cases T <;> decide +kernel

theorem fromString_inf (T : FloatType) (fb : Fallback) (errno : Nat) :
    fromString T fb errno (chars "inf") = .ok ⟨T.infBits, .success, 3, errno, false⟩ := by
  apply fromString_of_krosh _ (by decide)
  cases T <;> decide +kernel

theorem fromString_ninf (T : FloatType) (fb : Fallback) (errno : Nat) :
    fromString T fb errno (chars "-inf") = .ok ⟨negBits T T.infBits, .success, 4, errno, false⟩ := by
  apply fromString_of_krosh _ (by decide)
  cases T <;> decide +kernel

theorem fromString_zero (T : FloatType) (fb : Fallback) (errno : Nat) :
    fromString T fb errno (chars "0") = .ok ⟨0, .success, 1, errno, false⟩ := by
  apply fromString_of_krosh _ (by decide)
  cases T <;> decide +kernel

theorem toString_of_prints {T : FloatType} {bits : Nat} {s : List Nat} (hb : bits < 2 ^ T.W)
    (h : Prints T bits s) : toBasicString T bits = .ok s := by
  obtain ⟨t, h1, h2, -⟩ := C11_to_string T bits hb
  rw [h1, prints_unique h2 h]

/-- **C51.** `from_string(to_string(v))`, for every bit pattern of the type: NaN
stays a NaN, infinities keep their sign, a zero becomes plus zero, and every
finite non-zero value comes back bit for bit - except that the listed powers of
two (C22) are halved.  The conversion status is success, and converting the
result again gives the same text, again except for those powers. -/
theorem C51_string_round_trip (T : FloatType) (bits : Nat) (hb : bits < 2 ^ T.W) (fb : Fallback)
    (errno : Nat) (hfb : ReadsPrinted T bits fb errno) :
    ∃ s r, toBasicString T bits = .ok s ∧ fromString T fb errno s = .ok r ∧ r.status = .success ∧
      (IsNaN T bits → IsQuietNaN T r.value ∧ signBit T r.value = 0) ∧
      (IsInf T bits → r.value = bits) ∧
      (IsFinite T bits → value T bits = 0 → r.value = 0) ∧
      (IsFinite T bits → value T bits ≠ 0 → (∀ j ∈ lostExponents T, |value T bits| ≠ 2 ^ j) →
        r.value = bits) ∧
      ((∀ j ∈ lostExponents T, IsFinite T bits → |value T bits| ≠ 2 ^ j) →
        toBasicString T r.value = .ok s) ∧
      (IsFinite T bits → (∃ j ∈ lostExponents T, |value T bits| = 2 ^ j) →
        value T r.value = value T bits / 2) := by
  obtain ⟨s, hs, hp, -⟩ := C11_to_string T bits hb
  obtain ⟨c1, c2, c3⟩ := C08_ftoa_special T bits
  have excl1 : IsNaN T bits → ¬ IsInf T bits := fun h h' => h.2.2 h'.2.2
  have excl2 : IsNaN T bits → ¬ IsFinite T bits := fun h h' => h'.2 h.2.1
  have excl3 : IsInf T bits → ¬ IsFinite T bits := fun h h' => h'.2 h.2.1
  rcases datum_kinds hb with h | h | h
  · have e : s = chars "nan" := prints_unique hp (c1 h)
    subst e
    have hq : IsQuietNaN T T.qnanBits := by cases T <;> exact ⟨⟨by decide, by decide, by decide⟩, by decide⟩
    have hsg : signBit T T.qnanBits = 0 := by cases T <;> decide
    refine ⟨_, _, hs, fromString_nan T fb errno, rfl, fun _ => ⟨hq, hsg⟩,
      fun h' => (excl1 h h').elim, fun h' => (excl2 h h').elim, fun h' => (excl2 h h').elim,
      fun _ => toString_of_prints hq.1.1 ((C08_ftoa_special T _).1 hq.1), fun h' => (excl2 h h').elim⟩
  · have e : s = if signBit T bits = 1 then chars "-inf" else chars "inf" :=
      prints_unique hp (c2 h)
    have ha := isInf_abs h
    obtain ⟨d1, d2⟩ := pat_decomp hb
    have : ∃ r, fromString T fb errno s = .ok r ∧ r.status = .success ∧ r.value = bits := by
      rcases d2 with d2 | d2
      · rw [d2, if_neg (by decide)] at e
        subst e
        refine ⟨_, fromString_inf T fb errno, rfl, ?_⟩
        rw [d1, ha, d2]
        dsimp only
        cases T <;> decide
      · rw [d2, if_pos rfl] at e
        subst e
        refine ⟨_, fromString_ninf T fb errno, rfl, ?_⟩
        rw [d1, ha, d2]
        dsimp only
        cases T <;> decide
    obtain ⟨r, r1, r2, r3⟩ := this
    exact ⟨s, r, hs, r1, r2, fun h' => (excl1 h' h).elim, fun _ => r3,
      fun h' => (excl3 h h').elim, fun h' => (excl3 h h').elim, fun _ => by rw [r3]; exact hs,
      fun h' => (excl3 h h').elim⟩
  · by_cases h0 : value T bits = 0
    · have e : s = chars "0" := prints_unique hp (c3 h h0)
      subst e
      have hz : IsFinite T 0 := isFinite_of_lt (posInf_pos T)
      have hz0 : value T 0 = 0 := value_zero_iff.mpr (by simp [absPat])
      refine ⟨_, _, hs, fromString_zero T fb errno, rfl, fun h' => (excl2 h' h).elim,
        fun h' => (excl3 h' h).elim, fun _ _ => rfl, fun _ h' => (h' h0).elim,
        fun _ => toString_of_prints hz.1 ((C08_ftoa_special T _).2.2 hz hz0), fun _ => ?_⟩
      intro _
      rw [h0, hz0]; simp
    · obtain ⟨n, -, n1, -⟩ := C01_ftoa_identifies T bits h h0
      have e : s = n.text := prints_unique hp n1
      subst e
      obtain ⟨r, r1, r2, r3, r4, r5⟩ :=
        C22_round_trip T bits h h0 n n1 fb errno [] [] (by simpa using hfb n n1)
      have r1' : fromString T fb errno n.text = .ok r := by
        unfold fromString; simpa using r1
      exact ⟨n.text, r, hs, r1', r3, fun h' => (excl2 h' h).elim, fun h' => (excl3 h' h).elim,
        fun _ h' => (h0 h').elim, fun _ _ h' => r4 h',
        fun h' => by rw [r4 (fun j hj => h' j hj h)]; exact hs, fun _ h' => (r5 h').2⟩

/-- **C51, embedded NUL.** `from_string` sees a string only up to its first NUL
(provided the fallback, a function of C strings, does too). -/
theorem C51_embedded_nul (T : FloatType) (fb : Fallback) (errno : Nat) (s : List Nat)
    (hfb : fb (s ++ [0]) 0 errno = fb (cstr s ++ [0]) 0 errno) :
    fromString T fb errno s = fromString T fb errno (cstr s) := by
  unfold fromString
  by_cases h : ∀ c ∈ s, c ≠ 0
  · have : cstr s = s := by
      unfold cstr
      rw [List.takeWhile_eq_self_iff]
      intro c hc; simpa using h c hc
    rw [this]
  · have hsp : ∃ rest, s = cstr s ++ 0 :: rest := by
      push Not at h
      obtain ⟨c, hc, rfl⟩ := h
      unfold cstr
      clear hfb
      induction s with
      | nil => cases hc
      | cons a s ih =>
        by_cases ha : a = 0
        · subst ha; exact ⟨s, by simp⟩
        · have hc' : 0 ∈ s := by
            rcases List.mem_cons.mp hc with h | h
            · exact absurd h.symm ha
            · exact h
          obtain ⟨rest, hr⟩ := ih hc'
          refine ⟨rest, ?_⟩
          rw [List.takeWhile_cons_of_pos (by simpa using ha), List.cons_append, ← hr]
    obtain ⟨rest, hr⟩ := hsp
    have e : s ++ [0] = [] ++ cstr s ++ 0 :: (rest ++ [0]) := by
      conv_lhs => rw [hr]
      simp
    rw [e]
    have := (C30_only_the_string T fb errno [] (cstr s) (rest ++ [0]) (by
      rw [← e]
      simpa [FallbackResult.shift] using hfb)).1
    simp only [List.length_nil] at this
    rw [this]
    cases atof T fb errno (cstr s ++ [0]) 0 with
    | error => rfl
    | ok r => rfl

/-- 0.1, with a fallback that reads correctly: the hypotheses are met. -/
example (errno : Nat) : ∃ fb, ReadsPrinted .double 0x3FB999999999999A fb errno := by
  have hf : IsFinite .double 0x3FB999999999999A := ⟨by decide, by decide⟩
  have h0 : value .double 0x3FB999999999999A ≠ 0 := by
    rw [Ne, value_zero_iff]; decide
  obtain ⟨n, fb, h1, h2⟩ := C22_hypotheses .double 0x3FB999999999999A hf h0 errno 0 []
  refine ⟨fun _ str _ => ⟨0x3FB999999999999A, str + n.text.length, 0⟩, fun n' hn' => ?_⟩
  have : n'.text = n.text := prints_unique hn' h1
  rw [numeral_text_inj _ _ this]
  exact fun _ _ _ => ⟨(C01_reader _ _ hf h0 n h1 _).mpr rfl, rfl, (by decide : (0 : Nat) ≠ ERANGE)⟩

/-- "1.5\x00e3" is read like "1.5". -/
example (errno : Nat) : fromString .float (fun _ _ _ => ⟨0, 0, 0⟩) errno (chars "1.5\x00e3") =
    .ok ⟨0x3fc00000, .success, 3, errno, false⟩ := by
  rw [C51_embedded_nul _ _ _ _ rfl]
  exact fromString_of_krosh (by decide +kernel) (by decide)

end Floaxie
