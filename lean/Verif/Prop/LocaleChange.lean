import Verif.Proof.LocaleChange
import Verif.Prop.Locale

/-!
# The global locale changing during a call (C100)
-/

namespace Floaxie

open Spec FloatType

/-- **C100.** Whatever global locale each look at a character finds - another thread may set another one between any two of
them, and they need only leave NUL alone -, the call fails exactly when it fails in an unchanging "C" locale, in the same
way, and otherwise gives the same value, status, `errno` and use of the fallback.  The end pointer can differ
only if neither asked the fallback and both read something, and it stays inside the string. -/
theorem C100_same_value (T : FloatType) (V : Seen) (hV : ∀ p i, (V p i).lower 0 = 0) (fb : Fallback) (errno : Nat)
    (pre s post : List Nat) :
    (∃ e, @atof cLocale T fb errno (pre ++ s ++ 0 :: post) pre.length = .error e ∧
      Vary.atof V T fb errno (pre ++ s ++ 0 :: post) pre.length = .error e) ∨
    (∃ r r', @atof cLocale T fb errno (pre ++ s ++ 0 :: post) pre.length = .ok r ∧
      Vary.atof V T fb errno (pre ++ s ++ 0 :: post) pre.length = .ok r' ∧
      r'.value = r.value ∧ r'.status = r.status ∧ r'.errno = r.errno ∧ r'.fellBack = r.fellBack ∧
      (r'.strEnd = r.strEnd ∨ (r.fellBack = false ∧ pre.length < r.strEnd ∧ pre.length < r'.strEnd ∧
        r'.strEnd ≤ pre.length + s.length))) := by
  have hz : Vary.Upto (pre.length + s.length) (pre ++ s ++ 0 :: post) pre.length :=
    ⟨by omega, by rw [List.append_assoc, List.getElem?_append_right (by omega)]; simp⟩
  have hr := Vary.atof_rel (V := fun _ _ => cLocale) (V' := V) (fun _ _ => rfl) hV (T := T) (errno := errno) fb hz
  rw [Vary.atof_const] at hr
  cases hA : @atof cLocale T fb errno (pre ++ s ++ 0 :: post) pre.length with
  | error e =>
    rw [hA] at hr
    cases hB : Vary.atof V T fb errno (pre ++ s ++ 0 :: post) pre.length with
    | error e' => rw [hB] at hr; exact Or.inl ⟨e, rfl, by rw [show e' = e from hr.symm]⟩
    | ok r' => rw [hB] at hr; exact absurd hr (by simp [Rel])
  | ok r =>
    rw [hA] at hr
    cases hB : Vary.atof V T fb errno (pre ++ s ++ 0 :: post) pre.length with
    | error e' => rw [hB] at hr; exact absurd hr (by simp [Rel])
    | ok r' =>
      rw [hB] at hr
      obtain ⟨h1, h2⟩ := hr
      refine Or.inr ⟨r, r', rfl, rfl, ?_⟩
      rcases h1 with rfl | ⟨g0, g1, g2, q, rfl⟩
      · exact ⟨rfl, rfl, rfl, rfl, Or.inl rfl⟩
      · exact ⟨rfl, rfl, rfl, rfl, Or.inr ⟨g0, g1, g2, (h2 g0).1⟩⟩

/-- **C100, no change.** With one locale throughout, the model used here is the one of the other properties. -/
theorem C100_no_change (L : Locale) (T : FloatType) (fb : Fallback) (errno : Nat) (mem : List Nat) (str : Nat) :
    Vary.atof (fun _ _ => L) T fb errno mem str = @atof L T fb errno mem str :=
  Vary.atof_const L T fb errno mem str

/-- **C100, usual locales.** Nothing at all changes, in any memory, if every locale found maps the same characters
to each of the letters a-z as the "C" locale does, and all agree, for every character, on whether its
lower case is before 'a'. -/
theorem C100_usual_locales (T : FloatType) (V : Seen)
    (hV : ∀ p i, ∀ c x : Nat, 'a'.toNat ≤ x → x ≤ 'z'.toNat →
      ((V p i).lower c = x ↔ c = x ∨ ('A'.toNat ≤ c ∧ c ≤ 'Z'.toNat ∧ c + 32 = x)))
    (hS : ∀ c, (∀ p i, (V p i).lower c < 'a'.toNat) ∨ (∀ p i, 'a'.toNat ≤ (V p i).lower c))
    (fb : Fallback) (errno : Nat) (mem : List Nat) (str : Nat) :
    Vary.atof V T fb errno mem str = @atof cLocale T fb errno mem str := by
  refine Vary.atof_usual (V := V) (fun p i c x h1 h2 => (hV p i c x h1 h2).trans ?_) hS T fb errno mem str
  unfold toLower
  have e1 : 'A'.toNat = 65 := by decide
  have e2 : 'Z'.toNat = 90 := by decide
  have e3 : 'a'.toNat = 97 := by decide
  have e4 : 'z'.toNat = 122 := by decide
  rw [e1, e2]
  rw [e3] at h1
  rw [e4] at h2
  split_ifs <;> omega

/-- **C100, numerals.** Nor with any history of locales whatsoever, for a string without the letters n, N, i and I. -/
theorem C100_plain_string (T : FloatType) (V : Seen) (fb : Fallback) (errno : Nat) (pre s post : List Nat)
    (hs : ∀ c ∈ s, c ≠ 'n'.toNat ∧ c ≠ 'N'.toNat ∧ c ≠ 'i'.toNat ∧ c ≠ 'I'.toNat) :
    Vary.atof V T fb errno (pre ++ s ++ 0 :: post) pre.length =
      @atof cLocale T fb errno (pre ++ s ++ 0 :: post) pre.length := by
  rw [← Vary.atof_const]
  apply Vary.atof_plain
  refine ⟨pre.length + s.length, by omega, by rw [List.append_assoc, List.getElem?_append_right (by omega)]; simp, ?_⟩
  intro j c h1 h2 h3 hw
  rw [List.append_assoc, List.getElem?_append_right h1, List.getElem?_append_left (by omega)] at h3
  have := hs c (List.mem_of_getElem? h3)
  unfold WordLetter at hw
  tauto

/-- A locale in which `tolower('T')` is `'T'`. -/
@[reducible] def noLowerT : Locale := ⟨fun c => if c = 'T'.toNat then 'T'.toNat else toLower c⟩

/-- `first` until position `n` of the memory is looked at, `then_` from there on. -/
@[reducible] def changedAt (n : Nat) (first then_ : Locale) : Seen := fun p _ => if p < n then first else then_

/-- **C100, refuted part.** A call during which the locale changes need not do what it does with one of the two: with
`tolower('T')` = 'T' in the first and `tolower('I')` = 'I' in the second, each of them alone reads "INFINITY" up to
its third letter; changing from the first to the second behind the last 'I' reads all of it. -/
theorem C100_mixed_refuted (fb : Fallback) :
    @atof noLowerT .double fb 0 (chars "INFINITY" ++ [0]) 0 = .ok ⟨0x7FF0000000000000, .success, 3, 0, false⟩ ∧
    @atof dotlessLocale .double fb 0 (chars "INFINITY" ++ [0]) 0 = .ok ⟨0x7FF0000000000000, .success, 3, 0, false⟩ ∧
    Vary.atof (changedAt 6 noLowerT dotlessLocale) .double fb 0 (chars "INFINITY" ++ [0]) 0 =
      .ok ⟨0x7FF0000000000000, .success, 8, 0, false⟩ :=
  ⟨rfl, rfl, rfl⟩

/-- **C100, the two looks at one character.** The range check of a character in "nan(...)" asks the locale
twice: where one locale maps a character before 'a' and the other behind 'z', neither takes it for a letter, and a
change between the two questions does. -/
theorem C100_two_looks_refuted (fb : Fallback) :
    let A : Locale := ⟨fun c => if c = 0xC0 then 0xE0 else toLower c⟩
    let B : Locale := ⟨fun c => if c = 0xC0 then 'A'.toNat else toLower c⟩
    let mem := chars "nan(" ++ [0xC0] ++ chars ")" ++ [0]
    @atof A .double fb 0 mem 0 = .ok ⟨0x7FF8000000000000, .success, 3, 0, false⟩ ∧
    @atof B .double fb 0 mem 0 = .ok ⟨0x7FF8000000000000, .success, 3, 0, false⟩ ∧
    Vary.atof (fun _ i => if i = 0 then A else B) .double fb 0 mem 0 = .ok ⟨0x7FF8000000000000, .success, 6, 0, false⟩ :=
  ⟨rfl, rfl, rfl⟩

/-- The first theorem's hypothesis holds of that history, and it is about a string with a word. -/
example : ∀ p i, ((changedAt 6 noLowerT dotlessLocale) p i).lower 0 = 0 := by
  intro p i
  unfold changedAt
  by_cases h : p < 6
  · rw [if_pos h]; decide
  · rw [if_neg h]; decide

example (fb : Fallback) (mem : List Nat) (n : Nat) :
    Vary.atof (changedAt n cLocale latin1) .float fb 0 mem 0 = @atof cLocale .float fb 0 mem 0 := by
  have e1 : 'A'.toNat = 65 := by decide
  have e2 : 'Z'.toNat = 90 := by decide
  have e3 : 'a'.toNat = 97 := by decide
  have e4 : 'z'.toNat = 122 := by decide
  refine C100_usual_locales .float _ (fun p i c x h1 h2 => ?_) (fun c => ?_) fb 0 mem 0
  · unfold changedAt
    rw [e1, e2]
    rw [e3] at h1
    rw [e4] at h2
    by_cases hp : p < n
    · rw [if_pos hp]
      show toLower c = x ↔ _
      unfold toLower
      rw [e1, e2]
      split_ifs <;> omega
    · rw [if_neg hp]
      show (if 0xC0 ≤ c ∧ c ≤ 0xDE ∧ c ≠ 0xD7 then c + 32 else toLower c) = x ↔ _
      unfold toLower
      rw [e1, e2]
      split_ifs <;> omega
  · have h0 : ∀ p i, ((changedAt n cLocale latin1) p i).lower c = toLower c ∨
        (0xC0 ≤ c ∧ ((changedAt n cLocale latin1) p i).lower c = c + 32) := by
      intro p i
      unfold changedAt
      by_cases hp : p < n
      · rw [if_pos hp]; exact Or.inl rfl
      · rw [if_neg hp]
        show (if 0xC0 ≤ c ∧ c ≤ 0xDE ∧ c ≠ 0xD7 then c + 32 else toLower c) = _ ∨
          (_ ∧ (if 0xC0 ≤ c ∧ c ≤ 0xDE ∧ c ≠ 0xD7 then c + 32 else toLower c) = _)
        split_ifs with h
        · exact Or.inr ⟨h.1, rfl⟩
        · exact Or.inl rfl
    have hl : 0xC0 ≤ c → 'a'.toNat ≤ toLower c := by
      intro h; unfold toLower; rw [e1, e2, e3]; split_ifs <;> omega
    rw [e3] at hl ⊢
    by_cases h : toLower c < 97
    · refine Or.inl fun p i => ?_
      rcases h0 p i with g | ⟨g, -⟩
      · rw [g]; exact h
      · have := hl g; omega
    · refine Or.inr fun p i => ?_
      rcases h0 p i with g | ⟨g, g'⟩
      · rw [g]; omega
      · rw [g']; omega

/-- "-12.5e+3" with any history. -/
example (V : Seen) (fb : Fallback) :
    Vary.atof V .double fb 0 (chars "-12.5e+3" ++ [0]) 0 = @atof cLocale .double fb 0 (chars "-12.5e+3" ++ [0]) 0 :=
  C100_plain_string .double V fb 0 [] (chars "-12.5e+3") [] (by decide)

end Floaxie
