import Verif.Proof.Locale
import Verif.Proof.Local
import Verif.Prop.Total

/-!
# The global locale (C67)
-/

namespace Floaxie

open Spec FloatType

variable {L : Locale}

theorem kroshL_str (hL : L.lower 0 = 0) (T : FloatType) (s : List Nat) :
    (∃ r, @krosh L T (s ++ [0]) 0 = .ok r ∧ r.strEnd ≤ s.length) ∨
      @krosh L T (s ++ [0]) 0 = .error .badIndex ∨ @krosh L T (s ++ [0]) 0 = .error .signedOverflow := by
  have hr := krosh_rel L hL (T := T) (show Nul (s ++ [0]) 0 from nul_le.mpr (by omega))
  rcases krosh_str T s with ⟨r, h, -⟩ | h | h <;> rw [h] at hr <;> cases hx : @krosh L T (s ++ [0]) 0 <;> rw [hx] at hr
  · exact False.elim hr
  · exact Or.inl ⟨_, rfl, nul_le.mp hr.2⟩
  · exact Or.inr (Or.inl (congrArg _ (Eq.symm hr)))
  · exact False.elim hr
  · exact Or.inr (Or.inr (congrArg _ (Eq.symm hr)))
  · exact False.elim hr

theorem kroshL_moved (hL : L.lower 0 = 0) {T : FloatType} {pre s post : List Nat} :
    @krosh L T (pre ++ s ++ 0 :: post) pre.length =
      (@krosh L T (s ++ [0]) 0).map (fun r => { r with strEnd := r.strEnd + pre.length }) := by
  have h := krosh_local (holds_str pre s post) T 0
  rw [Nat.zero_add] at h
  rcases h with h | h | h
  · rcases kroshL_str hL T s with ⟨r, g, -⟩ | g | g <;> · rw [h] at g; cases g
  · rcases kroshL_str hL T s with ⟨r, g, -⟩ | g | g <;> · rw [h] at g; cases g
  · exact h

/-- **C67, any locale.**  Whatever the program's global locale does with letters
(it need only leave NUL alone), a call on a NUL-terminated string fails exactly
when it fails in the "C" locale, in the same way, and otherwise gives the same
value, status, `errno` and use of the fallback.  The end pointer can differ only
if neither call asked the fallback and both read something, and it stays inside
the string. -/
theorem C67_same_value (T : FloatType) (L : Locale) (hL : L.lower 0 = 0) (fb : Fallback) (errno : Nat)
    (pre s post : List Nat) :
    (∃ e, @atof cLocale T fb errno (pre ++ s ++ 0 :: post) pre.length = .error e ∧
      @atof L T fb errno (pre ++ s ++ 0 :: post) pre.length = .error e) ∨
    (∃ r r', @atof cLocale T fb errno (pre ++ s ++ 0 :: post) pre.length = .ok r ∧
      @atof L T fb errno (pre ++ s ++ 0 :: post) pre.length = .ok r' ∧
      r'.value = r.value ∧ r'.status = r.status ∧ r'.errno = r.errno ∧ r'.fellBack = r.fellBack ∧
      (r'.strEnd = r.strEnd ∨ (r.fellBack = false ∧ pre.length < r.strEnd ∧ pre.length < r'.strEnd ∧
        r'.strEnd ≤ pre.length + s.length))) := by
  have hr := atof_rel L hL (T := T) (errno := errno) fb (nul_str (pre := pre) (s := s) (post := post))
  cases hA : @atof cLocale T fb errno (pre ++ s ++ 0 :: post) pre.length with
  | error e =>
    rw [hA] at hr
    cases hB : @atof L T fb errno (pre ++ s ++ 0 :: post) pre.length with
    | error e' => rw [hB] at hr; exact Or.inl ⟨e, rfl, by rw [show e' = e from hr.symm]⟩
    | ok r' => rw [hB] at hr; exact absurd hr (by simp [Rel])
  | ok r =>
    rw [hA] at hr
    cases hB : @atof L T fb errno (pre ++ s ++ 0 :: post) pre.length with
    | error e' => rw [hB] at hr; exact absurd hr (by simp [Rel])
    | ok r' =>
      rw [hB] at hr
      obtain ⟨h1, h2⟩ := hr
      refine Or.inr ⟨r, r', rfl, rfl, ?_⟩
      rcases h1 with rfl | ⟨g0, g1, g2, q, rfl⟩
      · exact ⟨rfl, rfl, rfl, rfl, Or.inl rfl⟩
      · refine ⟨rfl, rfl, rfl, rfl, Or.inr ⟨g0, g1, g2, ?_⟩⟩
        unfold atof at hB
        rw [kroshL_moved hL] at hB
        rcases kroshL_str hL T s with ⟨k, e1, e2⟩ | e1 | e1
        · rw [e1] at hB
          simp only [Except.map, ok_bind] at hB
          split_ifs at hB with c1 c2
          · simp only [pure, Except.pure, Except.ok.injEq] at hB
            have := congrArg AtofResult.strEnd hB
            simp only at this ⊢; omega
          · simp only [pure, Except.pure, Except.ok.injEq] at hB
            have := congrArg AtofResult.fellBack hB
            simp only [g0] at this; cases this
          · simp only [pure, Except.pure, Except.ok.injEq] at hB
            have := congrArg AtofResult.strEnd hB
            simp only at this ⊢; omega
        · rw [e1] at hB; cases hB
        · rw [e1] at hB; cases hB

/-- **C67, usual locales.**  Nothing at all changes in a locale whose `tolower`
maps the same characters to each of the letters a-z as the "C" locale does. -/
theorem C67_usual_locale (T : FloatType) (L : Locale)
    (hL : ∀ c x : Nat, 'a'.toNat ≤ x → x ≤ 'z'.toNat →
      (L.lower c = x ↔ c = x ∨ ('A'.toNat ≤ c ∧ c ≤ 'Z'.toNat ∧ c + 32 = x)))
    (fb : Fallback) (errno : Nat) (mem : List Nat) (str : Nat) :
    @atof L T fb errno mem str = @atof cLocale T fb errno mem str := by
  refine atof_usual (L := L) (fun c x h1 h2 => (hL c x h1 h2).trans ?_) T fb errno mem str
  unfold toLower
  have e1 : 'A'.toNat = 65 := by decide
  have e2 : 'Z'.toNat = 90 := by decide
  have e3 : 'a'.toNat = 97 := by decide
  have e4 : 'z'.toNat = 122 := by decide
  rw [e1, e2]
  rw [e3] at h1
  rw [e4] at h2
  split_ifs <;> omega

/-- **C67, numerals.**  Nor in any locale whatsoever, for a string without the
letters n, N, i and I - every numeral, in particular. -/
theorem C67_plain_string (T : FloatType) (L : Locale) (fb : Fallback) (errno : Nat) (pre s post : List Nat)
    (hs : ∀ c ∈ s, c ≠ 'n'.toNat ∧ c ≠ 'N'.toNat ∧ c ≠ 'i'.toNat ∧ c ≠ 'I'.toNat) :
    @atof L T fb errno (pre ++ s ++ 0 :: post) pre.length = @atof cLocale T fb errno (pre ++ s ++ 0 :: post) pre.length := by
  apply atof_plain
  refine ⟨pre.length + s.length, by omega, by rw [List.append_assoc, List.getElem?_append_right (by omega)]; simp, ?_⟩
  intro j c h1 h2 h3 hw
  rw [List.append_assoc, List.getElem?_append_right h1, List.getElem?_append_left (by omega)] at h3
  have := hs c (List.mem_of_getElem? h3)
  unfold WordLetter at hw
  tauto

/-- A locale in which, as in the Turkish one, `tolower('I')` is not `'i'`. -/
@[reducible] def dotlessLocale : Locale := ⟨fun c => if c = 'I'.toNat then 'I'.toNat else toLower c⟩

/-- **C67, refuted part.**  How much of a word is read does depend on the
locale: where `tolower('I')` is `'I'`, "INFINITY" is read up to its third
letter only. -/
theorem C67_end_refuted (fb : Fallback) :
    dotlessLocale.lower 0 = 0 ∧
    @atof cLocale .double fb 0 (chars "INFINITY" ++ [0]) 0 = .ok ⟨0x7FF0000000000000, .success, 8, 0, false⟩ ∧
    @atof dotlessLocale .double fb 0 (chars "INFINITY" ++ [0]) 0 = .ok ⟨0x7FF0000000000000, .success, 3, 0, false⟩ :=
  ⟨by decide, rfl, rfl⟩

/-- The first theorem's hypothesis holds of that locale, the second's of one
that folds other letters, too (Latin-1). -/
example : dotlessLocale.lower 0 = 0 := by decide

@[reducible] def latin1 : Locale := ⟨fun c => if 0xC0 ≤ c ∧ c ≤ 0xDE ∧ c ≠ 0xD7 then c + 32 else toLower c⟩

example (fb : Fallback) (mem : List Nat) :
    @atof latin1 .float fb 0 mem 0 = @atof cLocale .float fb 0 mem 0 := by
  refine C67_usual_locale .float latin1 (fun c x h1 h2 => ?_) fb 0 mem 0
  show (if 0xC0 ≤ c ∧ c ≤ 0xDE ∧ c ≠ 0xD7 then c + 32 else toLower c) = x ↔ _
  unfold toLower
  have e1 : 'A'.toNat = 65 := by decide
  have e2 : 'Z'.toNat = 90 := by decide
  have e3 : 'a'.toNat = 97 := by decide
  have e4 : 'z'.toNat = 122 := by decide
  rw [e1, e2]
  rw [e3] at h1
  rw [e4] at h2
  split_ifs <;> omega

/-- "-12.5e+3" in any locale. -/
example (L : Locale) (fb : Fallback) :
    @atof L .double fb 0 (chars "-12.5e+3" ++ [0]) 0 = @atof cLocale .double fb 0 (chars "-12.5e+3" ++ [0]) 0 :=
  C67_plain_string .double L fb 0 [] (chars "-12.5e+3") [] (by decide)

end Floaxie
