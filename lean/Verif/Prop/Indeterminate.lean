import Verif.Proof.Indeterminate
import Verif.Prop.Special
import Verif.Proof.Locale

/-!
# C97: no result depends on an uninitialised object
-/

namespace Floaxie

open FloatType Spec

/-- **C97, printing.** Whatever the value, `ftoa` uses no indeterminate value, and does
what it does in the model where `len` and `K` are plain return values. -/
theorem C97_print [E : FpEval] (T : FloatType) (bits : Nat) (buf : List Nat) :
    ftoaI T bits buf ≠ .error .indeterminate ∧
    (∀ r, ftoaI T bits buf = .ok r ↔ ftoa T bits buf = .ok r) ∧
    (∀ e, ftoaI T bits buf = .error (.ub e) ↔ ftoa T bits buf = .error e) := by
  rw [ftoaI_eq]
  cases ftoa T bits buf with
  | error e => exact ⟨by simp [liftI, Except.mapError], by simp [liftI, Except.mapError], by simp [liftI, Except.mapError]⟩
  | ok r => exact ⟨by simp [liftI, Except.mapError], by simp [liftI, Except.mapError], by simp [liftI, Except.mapError]⟩

/-- **C97, parsing.** If the compiler constructs the result of `parse_mantissa` in place,
`atof` uses no indeterminate value, whatever the string, the locale and the other
`return` statements are compiled to; and it does what it does in the model without
indeterminate values. -/
theorem C97_parse [L : Locale] (el : Elision) (he : el.mantissa = true) (T : FloatType) (fb : Fallback) (errno : Nat)
    (mem : List Nat) (str : Nat) :
    atofI el T fb errno mem str ≠ .error .indeterminate ∧
    (∀ r, atofI el T fb errno mem str = .ok r ↔ atof T fb errno mem str = .ok r) ∧
    (∀ e, atofI el T fb errno mem str = .error (.ub e) ↔ atof T fb errno mem str = .error e) := by
  have key : atofI el T fb errno mem str = liftI (atof T fb errno mem str) := by
    rw [atofI_eq]
    cases hm : parseMantissa T mem str with
    | error e =>
      unfold atof krosh
      rw [hm]; rfl
    | ok mp => rw [liftI_ok, okI, if_pos (Or.inl he)]
  rw [key]
  cases atof T fb errno mem str with
  | error e => exact ⟨by simp [liftI, Except.mapError], by simp [liftI, Except.mapError], by simp [liftI, Except.mapError]⟩
  | ok r => exact ⟨by simp [liftI, Except.mapError], by simp [liftI, Except.mapError], by simp [liftI, Except.mapError]⟩

/-- A word at the start has a longest one. -/
theorem longest_of_word {mem : List Nat} {str : Nat} {s : Option Bool} {b : Bool} {w : List Nat} (hn : Nul mem str)
    (hw : Word b w) (hp : signText s ++ w <+: mem.drop str) :
    ∃ text w', mem.drop str = signText s ++ text ∧ LongestWord b w' text := by
  obtain ⟨q, hq⟩ := hp
  rw [List.append_assoc] at hq
  obtain ⟨c, R, hR, hc⟩ := word_start hw (List.prefix_append w q)
  refine ⟨w ++ q, ?_⟩
  rw [hR] at hq ⊢
  have hnul := nul_after hn hq.symm (by rintro rfl; revert hc; cases b <;> decide)
  have hd : R = mem.drop (str + (signText s).length + 1) := by
    rw [← List.drop_drop, ← List.drop_drop, ← hq, List.drop_left]; rfl
  have hpre : w <+: c :: R := ⟨q, hR⟩
  cases b with
  | true =>
    simp only [if_true] at hc
    rcases eatNan_spec hc hnul with ⟨w', h1, -⟩ | ⟨h1, -⟩
    · rw [← hd] at h1; exact ⟨w', hq.symm, h1⟩
    · rw [← hd] at h1; exact absurd hpre (h1 _ _ hw)
  | false =>
    simp only [Bool.false_eq_true, if_false] at hc
    rcases eatInf_spec hc hnul with ⟨w', h1, -⟩ | ⟨h1, -⟩
    · rw [← hd] at h1; exact ⟨w', hq.symm, h1⟩
    · rw [← hd] at h1; exact absurd hpre (h1 _ _ hw)

/-- **C97, without copy elision.** The language does not require the result of
`parse_mantissa` to be constructed in place.  Where it is copied, `atof` uses an
indeterminate value for exactly those strings that start with a word for NaN or infinity
(after an optional sign); for all others nothing changes. -/
theorem C97_without_elision (el : Elision) (he : el.mantissa = false) (T : FloatType) (fb : Fallback) (errno : Nat)
    (mem : List Nat) (str : Nat) (hn : Nul mem str) :
    (atofI el T fb errno mem str = .error .indeterminate ↔
      ∃ s b w, Word b w ∧ signText s ++ w <+: mem.drop str) ∧
    (¬ (∃ s b w, Word b w ∧ signText s ++ w <+: mem.drop str) →
      ∀ r, atofI el T fb errno mem str = .ok r ↔ atof T fb errno mem str = .ok r) := by
  obtain ⟨dp, hd, hr⟩ := parseDigits_total (T := T) hn
  -- a word is at the start exactly if `parse_digits` saw one
  have hword : dp.special ≠ .no ↔ ∃ s b w, Word b w ∧ signText s ++ w <+: mem.drop str := by
    constructor
    · intro hsp
      cases hr with
      | num => exact absurd rfl hsp
      | limit => exact absurd rfl hsp
      | word s isNan eaten c h1 h2 h3 h4 h5 =>
        have h6 : eaten ≠ 0 := fun h => hsp (by simp [h])
        rw [drop_of_get h2] at h1
        have hnul := nul_after hn h1 (by rintro rfl; revert h3; cases isNan <;> decide)
        have hpre : ∀ w : List Nat, w <+: c :: mem.drop (str + (signText s).length + 1) → signText s ++ w <+: mem.drop str := by
          intro w hw
          rw [h1]
          exact (List.prefix_append_right_inj _).mpr hw
        cases isNan with
        | true =>
          simp only [if_true] at h3 h4
          rcases eatNan_spec h3 hnul with ⟨w, g1, -⟩ | ⟨-, g2⟩
          · exact ⟨s, true, w, g1.word, hpre w g1.here⟩
          · rw [g2, Except.ok.injEq] at h4; exact absurd h4.symm h6
        | false =>
          simp only [Bool.false_eq_true, if_false] at h3 h4
          rcases eatInf_spec h3 hnul with ⟨w, g1, -⟩ | ⟨-, g2⟩
          · exact ⟨s, false, w, g1.word, hpre w g1.here⟩
          · rw [g2, Except.ok.injEq] at h4; exact absurd h4.symm h6
    · rintro ⟨s, b, w, hw, hp⟩
      obtain ⟨text, w', ht, hl⟩ := longest_of_word hn hw hp
      have := parseDigits_longest (T := T) hn ht hl
      rw [hd, Except.ok.injEq] at this
      rw [this]
      cases b <;> simp
  rw [atofI_eq]
  rw [← hword]
  have hpm : ∃ mp, parseMantissa T mem str = .ok mp ∧ mp.special = dp.special := by
    obtain ⟨dp', mp, h1, h2, -, h4, -⟩ := parseMantissa_total (T := T) hn
    refine ⟨mp, h2, ?_⟩
    unfold parseMantissa at h2
    rw [hd, ok_bind] at h2
    split_ifs at h2 with hs hv
    · rcases bind_ok h2 with ⟨w, -, hw⟩
      cases hw; rfl
    · cases h2; rfl
    · cases h2; rfl
  obtain ⟨mp, hm, hms⟩ := hpm
  rw [hm, liftI_ok, okI]
  simp only [he, Bool.false_eq_true, false_or, hms]
  by_cases h : dp.special = .no
  · rw [if_pos h]
    refine ⟨⟨fun h' => ?_, fun h' => absurd h h'⟩, fun _ r => ?_⟩
    · cases hA : atof T fb errno mem str <;> rw [hA] at h' <;> simp [liftI, Except.mapError] at h'
    · cases hA : atof T fb errno mem str <;> simp [liftI, Except.mapError]
  · rw [if_neg h]
    exact ⟨⟨fun _ => h, fun _ => rfl⟩, fun h' => absurd h h'⟩

/-- All results are constructed in place: what compilers do. -/
def allElided : Elision := ⟨true, true, true, true, true⟩

/-- No result is. -/
def noneElided : Elision := ⟨false, false, false, false, false⟩

/-- With "-inf" the object returned by `parse_mantissa` has indeterminate members, and
they are not used; where it is copied, they are. -/
example (fb : Fallback) :
    atofI allElided .double fb 0 (chars "-inf" ++ [0]) 0 = .ok ⟨2 ^ 63 + 2047 * 2 ^ 52, .success, 4, 0, false⟩ ∧
    (∃ o, parseMantissaI allElided .double (chars "-inf" ++ [0]) 0 = .ok o ∧ o.K = none ∧ o.value.f = none ∧ o.value.e = none) ∧
    atofI noneElided .double fb 0 (chars "-inf" ++ [0]) 0 = .error .indeterminate := by
  refine ⟨?_, ⟨_, rfl, rfl, rfl, rfl⟩, ?_⟩
  · have h : parseMantissa .double (chars "-inf" ++ [0]) 0 = .ok ⟨⟨0, 0⟩, 0, 4, .inf, false⟩ := by decide +kernel
    rw [atofI_eq, h, liftI_ok, okI, if_pos (by left; rfl)]
    have hk : krosh .double (chars "-inf" ++ [0]) 0 = .ok ⟨2 ^ 63 + 2047 * 2 ^ 52, 4, .success, true⟩ := by decide +kernel
    unfold atof
    rw [hk]; rfl
  · exact (C97_without_elision noneElided rfl .double fb 0 _ 0 ⟨4, by decide, by decide⟩).1.mpr
      ⟨some true, false, chars "inf", .inf _ (by unfold Spells; decide), [0], by decide⟩

/-- A number: the same result without any elision. -/
example (fb : Fallback) : atofI noneElided .double fb 0 (chars "1e2" ++ [0]) 0 = .ok ⟨0x4059000000000000, .success, 3, 0, false⟩ := by
  have h : parseMantissa .double (chars "1e2" ++ [0]) 0 = .ok ⟨⟨2 ^ 63, -63⟩, 0, 1, .no, true⟩ := by decide +kernel
  rw [atofI_eq, h, liftI_ok, okI, if_pos (by right; rfl)]
  have hk : krosh .double (chars "1e2" ++ [0]) 0 = .ok ⟨0x4059000000000000, 3, .success, true⟩ := by decide +kernel
  unfold atof
  rw [hk]; rfl

end Floaxie
