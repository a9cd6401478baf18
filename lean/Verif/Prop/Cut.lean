import Verif.Proof.Cut
import Verif.Prop.Total
import Verif.Prop.Long
import Verif.Prop.Spelling

/-!
# C72: the text that was consumed, alone
-/

namespace Floaxie

open FloatType Spec

/-- **C72.** Whatever string is read (a string `s` anywhere in memory, with its terminator), unless
the fallback is asked or the 2048 characters limit is reached: the text between the start and the
reported end, read alone, gives the same value and status, without the fallback, and is
consumed completely. -/
theorem C72_alone (T : FloatType) (fb : Fallback) (errno : Nat) (pre s post : List Nat) (r : AtofResult)
    (h : atof T fb errno (pre ++ s ++ 0 :: post) pre.length = .ok r) (hf : r.fellBack = false)
    (hl : r.strEnd - pre.length ≤ 2048) :
    (s.take (r.strEnd - pre.length)).length = r.strEnd - pre.length ∧
    ∀ fb' errno', fromString T fb' errno' (s.take (r.strEnd - pre.length)) =
      .ok ⟨r.value, r.status, r.strEnd - pre.length, errno', false⟩ := by
  obtain ⟨g1, g2⟩ := C29_end_inside T fb errno pre s post r h hf
  have hlen : (s.take (r.strEnd - pre.length)).length = r.strEnd - pre.length := by
    rw [List.length_take]; omega
  refine ⟨hlen, fun fb' errno' => ?_⟩
  unfold atof at h
  rw [krosh_moved] at h
  cases hk : krosh T (s ++ [0]) 0 with
  | error e => rw [hk] at h; cases h
  | ok d =>
    rw [hk] at h
    simp only [Except.map, ok_bind] at h
    have key : ∀ k, k = r.strEnd - pre.length → d.strEnd = k → krosh T (s.take k ++ [0]) 0 = .ok d := by
      rintro k hk1 rfl
      rw [← hk1] at hlen
      refine krosh_cut (by cases T <;> decide) hk (by omega) (fun i hi => ?_) ?_
      · rw [List.getElem?_append_left (by omega), List.getElem?_append_left (by omega), List.getElem?_take, if_pos hi]
      · rw [List.getElem?_append_right (by omega), hlen, Nat.sub_self]; rfl
    unfold fromString atof
    split_ifs at h with h1 h2
    · cases h
      simp only at hlen key ⊢
      rw [Nat.add_sub_cancel] at key hlen ⊢
      rw [key _ rfl rfl, ok_bind, if_pos (by omega), if_pos h2]
      rfl
    · cases h
      simp at hf
    · cases h
      simp only at hlen key ⊢
      rw [Nat.add_sub_cancel] at key hlen ⊢
      have hd : d.strEnd = 0 := by omega
      rw [key _ rfl rfl, ok_bind, if_neg (by omega), hd]
      rfl

/-- The hypotheses are met, at an offset and with more text behind: "1e5.x" (of which "1e5." is
consumed), "nan(12" ("nan"), "0e5" ("0") and "x" (nothing). -/
example (fb : Fallback) : ∃ r, atof .float fb 0 ([7] ++ chars "1e5.x" ++ 0 :: [9]) 1 = .ok r ∧ r.fellBack = false ∧ r.strEnd = 5 ∧
    r.value = 0x47C35000 := ⟨_, rfl, rfl, rfl, rfl⟩
example (fb : Fallback) : ∃ r, atof .double fb 0 ([] ++ chars "nan(12" ++ 0 :: []) 0 = .ok r ∧ r.fellBack = false ∧ r.strEnd = 3 := ⟨_, rfl, rfl, rfl⟩
example (fb : Fallback) : ∃ r, atof .float fb 0 ([] ++ chars "0e5" ++ 0 :: []) 0 = .ok r ∧ r.fellBack = false ∧ r.strEnd = 1 := ⟨_, rfl, rfl, rfl⟩
example (fb : Fallback) : ∃ r, atof .float fb 0 ([] ++ chars "x" ++ 0 :: []) 0 = .ok r ∧ r.fellBack = false ∧ r.strEnd = 0 := ⟨_, rfl, rfl, rfl⟩

/-- **C72 is false at the limit:** of 2049 zeros followed by "5e3" the zeros are consumed and the
value is 5; alone, the zeros are consumed, and their value is 0. -/
theorem C72_limit_refuted (T : FloatType) (fb : Fallback) (errno : Nat) :
    ∃ v, value T v = 5 ∧
      fromString T fb errno (List.replicate 2049 48 ++ chars "5e3") = .ok ⟨v, .success, 2049, errno, false⟩ ∧
      fromString T fb errno ((List.replicate 2049 48 ++ chars "5e3").take 2049) = .ok ⟨0, .success, 2049, errno, false⟩ := by
  obtain ⟨v, h1, h2, -⟩ := C40_refuted T fb errno
  refine ⟨v, h1, ?_, ?_⟩
  · unfold fromString; rw [List.append_assoc]; exact h2
  · obtain ⟨z, hz⟩ : ∃ z, z = 2049 := ⟨_, rfl⟩
    rw [← hz]
    have hz := hz.le
    have e1 : (List.replicate z 48 ++ chars "5e3").take z = List.replicate z 48 := List.take_left' (by simp)
    have e2 : (⟨none, List.replicate z 0, none, none⟩ : Numeral).text = List.replicate z 48 := by
      simp [Numeral.text, Numeral.mantText, Numeral.expText, signText, List.map_replicate, digitChar]
    rw [e1]
    rcases Nat.eq_zero_or_pos z with rfl | hp
    · rfl
    have := C34_zero T fb errno (List.replicate z 48 ++ [0]) 0 ⟨none, List.replicate z 0, none, none⟩
      (by
        rw [← e2]
        refine numeralAt_cstr ⟨by simp; omega, by intro e he; cases he⟩ ?_ (by intro e he; cases he)
        simpa [signText, Numeral.mantText] using hz)
      (by simp [Numeral.fracDigits])
    unfold fromString
    rw [this, e2]
    simp [Numeral.expText]

end Floaxie
