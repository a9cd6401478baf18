import Verif.Proof.Locale
import Verif.Model.LocaleChange

/-!
# The parser while the global locale changes
-/

namespace Floaxie.Vary

open Spec FloatType

/-- Position `i` is not behind the NUL at `z`. -/
def Upto (z : Nat) (mem : List Nat) (i : Nat) : Prop := i ≤ z ∧ mem[z]? = some 0

theorem Upto.get {z : Nat} {mem : List Nat} {i : Nat} (h : Upto z mem i) : ∃ c, mem[i]? = some c := by
  obtain ⟨hz, -⟩ := List.getElem?_eq_some_iff.mp h.2
  exact ⟨_, List.getElem?_eq_getElem (show i < mem.length by have := h.1; omega)⟩

theorem Upto.next {z : Nat} {mem : List Nat} {i c : Nat} (h : Upto z mem i) (hc : mem[i]? = some c) (h0 : c ≠ 0) :
    Upto z mem (i + 1) := by
  rcases Nat.lt_or_eq_of_le h.1 with g | rfl
  · exact ⟨g, h.2⟩
  · rw [h.2] at hc; cases hc; exact absurd rfl h0

theorem Upto.prev {z : Nat} {mem : List Nat} {i j : Nat} (h : Upto z mem i) (hj : j ≤ i) : Upto z mem j :=
  ⟨le_trans hj h.1, h.2⟩

variable {z : Nat}

theorem eatNanLoopL_ok {mem : List Nat} {V : Seen} (hL : ∀ p i, (V p i).lower 0 = 0) : ∀ (fuel cp : Nat), Upto z mem cp → mem.length < fuel + cp →
    ∃ q, cp ≤ q ∧ Upto z mem q ∧ eatNanLoop V mem fuel cp = .ok q := by
  intro fuel
  induction fuel with
  | zero =>
    intro cp h hl
    obtain ⟨h1, h2⟩ := h
    obtain ⟨hz, -⟩ := List.getElem?_eq_some_iff.mp h2
    omega
  | succ n ih =>
    intro cp h hl
    obtain ⟨c, hc⟩ := h.get
    unfold eatNanLoop
    rw [rd_of hc, ok_bind]
    split_ifs with hcond
    · obtain ⟨q, h1, h2, h3⟩ := ih (cp + 1) (h.next hc (by
        intro h0; subst h0; simp only [hL] at hcond; revert hcond; decide)) (by omega)
      exact ⟨q, by omega, h2, h3⟩
    · exact ⟨cp, le_refl _, h, rfl⟩

/-- Whether a word is found does not depend on the locale. -/
theorem eatNanL_ok {mem : List Nat} {i : Nat} {V : Seen} (hL : ∀ p i, (V p i).lower 0 = 0) (h : Upto z mem i) :
    ∃ k, eatNan V mem i = .ok k ∧ Upto z mem (i + k) ∧ (k ≠ 0 ↔ ∃ c0 c1, mem[i]? = some c0 ∧ mem[i + 1]? = some c1 ∧
      (c0 = 'a'.toNat ∨ c0 = 'A'.toNat) ∧ (c1 = 'n'.toNat ∨ c1 = 'N'.toNat)) := by
  obtain ⟨c0, h0⟩ := h.get
  unfold eatNan
  rw [rd_of h0, ok_bind]
  split_ifs with a0
  · have h1' := h.next h0 (by rintro rfl; revert a0; decide)
    obtain ⟨c1, h1⟩ := h1'.get
    rw [rd_of h1, ok_bind]
    split_ifs with a1
    · have h2' := h1'.next h1 (by rintro rfl; revert a1; decide)
      obtain ⟨c2, h2⟩ := h2'.get
      have hyes : ∃ c0 c1, mem[i]? = some c0 ∧ mem[i + 1]? = some c1 ∧
          (c0 = 'a'.toNat ∨ c0 = 'A'.toNat) ∧ (c1 = 'n'.toNat ∨ c1 = 'N'.toNat) := ⟨c0, c1, h0, h1, a0, a1⟩
      rw [rd_of h2, ok_bind]
      split_ifs with a2
      · have h3' := h2'.next h2 (by rintro rfl; revert a2; decide)
        obtain ⟨q, g1, g2, g3⟩ := eatNanLoopL_ok hL (mem.length + 1) (i + 3) h3' (by omega)
        rw [g3, ok_bind]
        obtain ⟨c, hc⟩ := g2.get
        rw [rd_of hc, ok_bind]
        split_ifs with a3
        · have := g2.next hc (by rintro rfl; revert a3; decide)
          exact ⟨_, rfl, by rwa [show i + (q - i + 1) = q + 1 by omega], by simp only [hyes, iff_true]; omega⟩
        · exact ⟨_, rfl, h2', by simp only [hyes, iff_true]; omega⟩
      · exact ⟨_, rfl, h2', by simp only [hyes, iff_true]; omega⟩
    · refine ⟨_, rfl, h, ?_⟩
      simp only [ne_eq, not_true, false_iff]
      rintro ⟨d0, d1, e0, e1, -, e2⟩
      rw [h1] at e1; cases e1; exact a1 e2
  · refine ⟨_, rfl, h, ?_⟩
    simp only [ne_eq, not_true, false_iff]
    rintro ⟨d0, d1, e0, e1, e2, -⟩
    rw [h0] at e0; cases e0; exact a0 e2

theorem eatInfLoopL_ok {mem : List Nat} {V : Seen} (hL : ∀ p i, (V p i).lower 0 = 0) : ∀ (suffix : List Nat) (cp : Nat), Upto z mem cp → 0 ∉ suffix →
    eatInfLoop V mem suffix cp = .ok none ∨
      (eatInfLoop V mem suffix cp = .ok (some (cp + suffix.length)) ∧ Upto z mem (cp + suffix.length)) := by
  intro suffix
  induction suffix with
  | nil => intro cp h _; exact Or.inr ⟨rfl, h⟩
  | cons x xs ih =>
    intro cp h hx
    obtain ⟨c, hc⟩ := h.get
    unfold eatInfLoop
    rw [rd_of hc, ok_bind]
    split_ifs with a
    · have := ih (cp + 1) (h.next hc (by
        rintro rfl
        exact hx (by rw [← a, hL]; exact List.mem_cons_self))) (fun h => hx (List.mem_cons_of_mem _ h))
      rw [List.length_cons, show cp + (xs.length + 1) = cp + 1 + xs.length by omega]
      exact this
    · exact Or.inl rfl

theorem eatInfL_ok {mem : List Nat} {i : Nat} {V : Seen} (hL : ∀ p i, (V p i).lower 0 = 0) (h : Upto z mem i) :
    ∃ k, eatInf V mem i = .ok k ∧ Upto z mem (i + k) ∧ (k ≠ 0 ↔ ∃ c0 c1, mem[i]? = some c0 ∧ mem[i + 1]? = some c1 ∧
      (c0 = 'n'.toNat ∨ c0 = 'N'.toNat) ∧ (c1 = 'f'.toNat ∨ c1 = 'F'.toNat)) := by
  obtain ⟨c0, h0⟩ := h.get
  unfold eatInf
  rw [rd_of h0, ok_bind]
  split_ifs with a0
  · have h1' := h.next h0 (by rintro rfl; revert a0; decide)
    obtain ⟨c1, h1⟩ := h1'.get
    rw [rd_of h1, ok_bind]
    split_ifs with a1
    · have h2' := h1'.next h1 (by rintro rfl; revert a1; decide)
      obtain ⟨c2, h2⟩ := h2'.get
      have hyes : ∃ c0 c1, mem[i]? = some c0 ∧ mem[i + 1]? = some c1 ∧
          (c0 = 'n'.toNat ∨ c0 = 'N'.toNat) ∧ (c1 = 'f'.toNat ∨ c1 = 'F'.toNat) := ⟨c0, c1, h0, h1, a0, a1⟩
      rw [rd_of h2, ok_bind]
      split_ifs with a2
      · have h3' := h2'.next h2 (by rintro rfl; revert a2; decide)
        rcases eatInfLoopL_ok hL ['n'.toNat, 'i'.toNat, 't'.toNat, 'y'.toNat] (i + 3) h3' (by decide) with g | ⟨g, g'⟩
        · rw [g, ok_bind]; exact ⟨_, rfl, h2', by simp only [hyes, iff_true]; omega⟩
        · rw [g, ok_bind]
          exact ⟨_, rfl, (Nat.add_sub_cancel' (show i ≤ i + 3 + _ by omega)).symm ▸ g', by simp only [hyes, iff_true]; omega⟩
      · exact ⟨_, rfl, h2', by simp only [hyes, iff_true]; omega⟩
    · refine ⟨_, rfl, h, ?_⟩
      simp only [ne_eq, not_true, false_iff]
      rintro ⟨d0, d1, e0, e1, -, e2⟩
      rw [h1] at e1; cases e1; exact a1 e2
  · refine ⟨_, rfl, h, ?_⟩
    simp only [ne_eq, not_true, false_iff]
    rintro ⟨d0, d1, e0, e1, e2, -⟩
    rw [h0] at e0; cases e0; exact a0 e2

/-- The first letter of a word. -/
theorem parseSwitch_word {V V' : Seen} (hV : ∀ p i, (V p i).lower 0 = 0) (hL : ∀ p i, (V' p i).lower 0 = 0) {T : FloatType} {mem : List Nat} {str c : Nat} {st : PState}
    (h : Upto z mem (str + st.pos)) (hc : mem[str + st.pos]? = some c) (hwl : WordLetter c) :
    Rel (fun a b => SameState a b ∧ a.stop = true ∧ Upto z mem (str + a.pos) ∧ Upto z mem (str + b.pos))
      (parseSwitch V T mem str c st) (parseSwitch V' T mem str c st) := by
  have e : (c = 'n'.toNat ∨ c = 'N'.toNat) ∨ (c = 'i'.toNat ∨ c = 'I'.toNat) := by unfold WordLetter at hwl; tauto
  have n1 : ¬ c = '0'.toNat := by rcases e with (rfl | rfl) | (rfl | rfl) <;> decide
  have n2 : ¬ ('1'.toNat ≤ c ∧ c ≤ '9'.toNat) := by rcases e with (rfl | rfl) | (rfl | rfl) <;> decide
  have n3 : ¬ c = '.'.toNat := by rcases e with (rfl | rfl) | (rfl | rfl) <;> decide
  have hn := h.next hc (by rintro rfl; revert e; decide)
  unfold parseSwitch
  rw [if_neg n1, if_neg n1, if_neg n2, if_neg n2, if_neg n3, if_neg n3]
  by_cases hw : c = 'n'.toNat ∨ c = 'N'.toNat
  · rw [if_pos hw, if_pos hw]
    obtain ⟨k, e1, u, e2⟩ := eatNanL_ok hV hn
    obtain ⟨k', e3, u', e4⟩ := eatNanL_ok hL hn
    refine Rel.ite _ ?_ (Rel.pure ⟨Or.inl rfl, rfl, h, h⟩)
    rw [e1, e3, ok_bind, ok_bind]
    have hkk : k' ≠ 0 ↔ k ≠ 0 := by rw [e2, e4]
    by_cases hk : k = 0
    · have hk' : k' = 0 := by by_contra hne; exact hkk.mp hne hk
      rw [hk, hk']; exact Rel.pure ⟨Or.inl rfl, rfl, hn, hn⟩
    · have hk' := hkk.mpr hk
      rw [if_pos hk, if_pos hk']
      exact Rel.pure ⟨Or.inr ⟨by simp only; decide, by simp only; omega, by simp only; omega, st.pos + (k' + 1), rfl⟩, rfl,
      by simpa only [show str + (st.pos + (k + 1)) = str + st.pos + 1 + k by omega] using u,
      by simpa only [show str + (st.pos + (k' + 1)) = str + st.pos + 1 + k' by omega] using u'⟩
  have hi : c = 'i'.toNat ∨ c = 'I'.toNat := e.resolve_left hw
  rw [if_neg hw, if_neg hw, if_pos hi, if_pos hi]
  obtain ⟨k, e1, u, e2⟩ := eatInfL_ok hV hn
  obtain ⟨k', e3, u', e4⟩ := eatInfL_ok hL hn
  refine Rel.ite _ ?_ (Rel.pure ⟨Or.inl rfl, rfl, h, h⟩)
  rw [e1, e3, ok_bind, ok_bind]
  have hkk : k' ≠ 0 ↔ k ≠ 0 := by rw [e2, e4]
  by_cases hk : k = 0
  · have hk' : k' = 0 := by by_contra hne; exact hkk.mp hne hk
    rw [hk, hk']; exact Rel.pure ⟨Or.inl rfl, rfl, hn, hn⟩
  · have hk' := hkk.mpr hk
    rw [if_pos hk, if_pos hk']
    exact Rel.pure ⟨Or.inr ⟨by simp only; decide, by simp only; omega, by simp only; omega, st.pos + (k' + 1), rfl⟩, rfl,
      by simpa only [show str + (st.pos + (k + 1)) = str + st.pos + 1 + k by omega] using u,
      by simpa only [show str + (st.pos + (k' + 1)) = str + st.pos + 1 + k' by omega] using u'⟩

/-- Not the first letter of a word: the locale is not looked at. -/
theorem parseSwitch_same {V V' : Seen} {T : FloatType} {mem : List Nat} {str c : Nat} {st : PState} (hc : ¬ WordLetter c) :
    parseSwitch V' T mem str c st = parseSwitch V T mem str c st := by
  have h1 : ¬ (c = 'n'.toNat ∨ c = 'N'.toNat) := fun h => hc (by unfold WordLetter; tauto)
  have h2 : ¬ (c = 'i'.toNat ∨ c = 'I'.toNat) := fun h => hc (by unfold WordLetter; tauto)
  unfold parseSwitch
  simp only [if_neg h1, if_neg h2]

/-- Where the scan is after a character that starts no word. -/
theorem parseSwitch_pos {V : Seen} {T : FloatType} {mem : List Nat} {str c : Nat} {st st' : PState} (hc : ¬ WordLetter c)
    (h : parseSwitch V T mem str c st = .ok st') : st'.pos = st.pos ∧ (c = 0 → st'.stop = true) := by
  have h1 : ¬ (c = 'n'.toNat ∨ c = 'N'.toNat) := fun h => hc (by unfold WordLetter; tauto)
  have h2 : ¬ (c = 'i'.toNat ∨ c = 'I'.toNat) := fun h => hc (by unfold WordLetter; tauto)
  unfold parseSwitch at h
  rw [if_neg h1, if_neg h2] at h
  split_ifs at h with a0 a1 a2 a3
  · cases h
    exact ⟨by unfold stepZero; split_ifs <;> rfl, by rintro rfl; exact absurd a0 (by decide)⟩
  · exact ⟨by rw [pushDigit_pos h, flushZeros_pos], by rintro rfl; exact absurd a1 (by decide)⟩
  · cases h; exact ⟨rfl, by rintro rfl; exact absurd a2 (by decide)⟩
  · cases h; exact ⟨rfl, by rintro rfl; exact absurd a3.1 (by decide)⟩
  · cases h; exact ⟨rfl, fun _ => rfl⟩

theorem parseLoop_rel {V V' : Seen} (hV : ∀ p i, (V p i).lower 0 = 0) (hL : ∀ p i, (V' p i).lower 0 = 0) {T : FloatType} {mem : List Nat} {str : Nat} : ∀ (fuel : Nat) (st : PState),
    ((st.stop = true ∧ Upto z mem (str + (st.pos - 1))) ∨ Upto z mem (str + st.pos)) →
    Rel (fun a b => SameState a b ∧ Upto z mem (str + (a.pos - 1)) ∧ Upto z mem (str + (b.pos - 1)))
      (parseLoop V T mem str fuel st) (parseLoop V' T mem str fuel st)
  | 0, _, _ => rfl
  | fuel + 1, st, h => by
    unfold parseLoop
    cases hs : st.stop with
    | true =>
      have : Upto z mem (str + (st.pos - 1)) := by
        rcases h with h | h
        · exact h.2
        · exact h.prev (by omega)
      exact ⟨Or.inl rfl, this, this⟩
    | false =>
      simp only [Bool.false_eq_true, if_false]
      have h : Upto z mem (str + st.pos) := by simpa [hs] using h
      obtain ⟨c, hc⟩ := h.get
      unfold parseStep
      rw [rd_of hc, ok_bind, ok_bind]
      by_cases hw : WordLetter c
      · refine Rel.bind (R := fun a b => SameState a b ∧ a.stop = true ∧ Upto z mem (str + (a.pos - 1)) ∧ Upto z mem (str + (b.pos - 1))) ?_ ?_
        · refine (parseSwitch_word hV hL (T := T) h hc hw).bind ?_
          rintro a b ⟨h1, h2, h3, h4⟩
          refine Rel.pure ⟨?_, by simp only [h2, Bool.true_or], by simpa only [Nat.add_sub_cancel] using h3,
            by simpa only [Nat.add_sub_cancel] using h4⟩
          rcases h1 with rfl | ⟨g0, g2, g3, q, rfl⟩
          · exact Or.inl rfl
          · simp only at g3
            exact Or.inr ⟨g0, by simp only; omega, by simp only; omega, q + 1, by simp only [h2, Bool.true_or]⟩
        · rintro a b ⟨h1, h2, h3⟩
          cases fuel with
          | zero => exact rfl
          | succ f =>
            unfold parseLoop
            rw [h1.stop, h2]
            exact Rel.pure ⟨h1, h3⟩
      · rw [parseSwitch_same (V := V) (V' := V') hw]
        cases hA : parseSwitch V T mem str c st with
        | error e => exact rfl
        | ok a =>
          rw [ok_bind, pure_bind', pure_bind']
          obtain ⟨p1, p2⟩ := parseSwitch_pos hw hA
          refine parseLoop_rel hV hL fuel _ ?_
          by_cases h0 : c = 0
          · left
            simp only [p2 h0, Bool.true_or, p1, Nat.add_sub_cancel, true_and]
            exact h
          · right
            have := h.next hc h0
            simp only [p1]
            exact this

theorem parseDigits_rel {V V' : Seen} (hV : ∀ p i, (V p i).lower 0 = 0) (hL : ∀ p i, (V' p i).lower 0 = 0) {T : FloatType} {mem : List Nat} {str : Nat} (h : Upto z mem str) :
    Rel (fun a b => SameDigits str a b ∧ str ≤ a.strEnd ∧ Upto z mem a.strEnd ∧ Upto z mem b.strEnd)
      (parseDigits V T mem str) (parseDigits V' T mem str) := by
  unfold parseDigits
  refine (parseLoop_rel hV hL _ _ (Or.inr h)).bind ?_
  rintro a b ⟨h1, h2, h3⟩
  have hd : b.digits = a.digits := by rcases h1 with rfl | ⟨-, -, -, q, rfl⟩ <;> rfl
  rw [hd]
  refine Rel.bind_same _ fun v => Rel.pure ⟨?_, Nat.le_add_right _ _, h2, h3⟩
  rcases h1 with rfl | ⟨g0, g2, g3, q, rfl⟩
  · exact Or.inl rfl
  · simp only at g3
    exact Or.inr ⟨g0, by simp only; omega, by simp only; omega, str + (q - 1), rfl⟩

theorem parseMantissa_rel {V V' : Seen} (hV : ∀ p i, (V p i).lower 0 = 0) (hL : ∀ p i, (V' p i).lower 0 = 0) {T : FloatType} {mem : List Nat} {str : Nat} (h : Upto z mem str) :
    Rel (fun a b => SameMantissa str a b ∧ str ≤ a.strEnd ∧ Upto z mem a.strEnd ∧ Upto z mem b.strEnd)
      (parseMantissa V T mem str) (parseMantissa V' T mem str) := by
  unfold parseMantissa
  refine (parseDigits_rel hV hL h).bind ?_
  rintro a b ⟨h1, h2, h3, h4⟩
  rcases h1 with rfl | ⟨g0, g1, g2, q, rfl⟩
  · refine Rel.ite _ ?_ (Rel.pure ⟨Or.inl rfl, h2, h3, h4⟩)
    exact Rel.bind_same _ fun w => Rel.pure ⟨Or.inl rfl, h2, h3, h4⟩
  · rw [if_neg g0, if_neg g0]
    exact Rel.pure ⟨Or.inr ⟨g0, g1, g2, q, rfl⟩, h2, h3, h4⟩

theorem parseExponent_rel {V V' : Seen} (hV : ∀ p i, (V p i).lower 0 = 0) (hL : ∀ p i, (V' p i).lower 0 = 0) {mem : List Nat} {str : Nat} (h : Upto z mem str) :
    Rel (fun a b => b.value = a.value ∧ (b.strEnd = a.strEnd ∨ (str < a.strEnd ∧ str < b.strEnd)) ∧ Upto z mem b.strEnd)
      (parseExponent V mem str) (parseExponent V' mem str) := by
  unfold parseExponent
  obtain ⟨c, hc⟩ := h.get
  rw [rd_of hc, ok_bind, ok_bind]
  by_cases he : c ≠ 'e'.toNat ∧ c ≠ 'E'.toNat
  · rw [if_pos he, if_pos he]; exact Rel.pure ⟨rfl, Or.inl rfl, h⟩
  rw [if_neg he, if_neg he]
  refine (parseDigits_rel hV hL (h.next hc (by rintro rfl; exact he (by decide)))).bind ?_
  rintro a b ⟨h1, h2, h3, h4⟩
  rcases h1 with rfl | ⟨g0, g1, g2, q, rfl⟩
  · exact Rel.bind_same _ fun w => Rel.bind_same _ fun v => Rel.pure ⟨rfl, Or.inl rfl, h4⟩
  · refine Rel.bind_same _ fun w => Rel.bind_same _ fun v => Rel.pure ⟨rfl, Or.inr ⟨?_, ?_⟩, h4⟩
    · simp only; omega
    · simp only at g2 ⊢; omega

theorem krosh_rel {V V' : Seen} (hV : ∀ p i, (V p i).lower 0 = 0) (hL : ∀ p i, (V' p i).lower 0 = 0) {T : FloatType} {mem : List Nat} {str : Nat} (h : Upto z mem str) :
    Rel (fun a b => SameKrosh str a b ∧ Upto z mem b.strEnd) (krosh V T mem str) (krosh V' T mem str) := by
  unfold krosh
  refine (parseMantissa_rel hV hL h).bind ?_
  rintro a b ⟨h1, h2, h3, h4⟩
  rcases h1 with h1 | ⟨g0, g1, g2, q, rfl⟩
  · rw [h1]
    by_cases hc : a.special = .no ∧ a.value.f ≠ 0
    · rw [if_pos hc, if_pos hc]
      refine (parseExponent_rel hV hL h3).bind ?_
      rintro x y ⟨e1, e2, e4⟩
      rw [e1]
      have key : ∀ (v : Nat) (s : Status) (c : Bool), SameKrosh str ⟨v, x.strEnd, s, c⟩ ⟨v, y.strEnd, s, c⟩ ∧
          Upto z mem (KroshResult.strEnd ⟨v, y.strEnd, s, c⟩) := by
        intro v s c
        refine ⟨?_, e4⟩
        rcases e2 with e2 | ⟨e2, e3⟩
        · rw [e2]; exact Or.inl rfl
        · exact Or.inr ⟨by simp only; omega, by simp only; omega, y.strEnd, rfl⟩
      refine Rel.bind_same _ fun K => ?_
      refine Rel.ite _ (Rel.ite _ (Rel.pure (key _ _ _)) (Rel.pure (key _ _ _))) ?_
      exact Rel.bind_same _ fun w => Rel.bind_same _ fun w' => Rel.bind_same _ fun v => Rel.pure (key _ _ _)
    · rw [if_neg hc, if_neg hc]
      exact Rel.pure ⟨Or.inl rfl, h3⟩
  · have hc : ¬ (a.special = .no ∧ a.value.f ≠ 0) := fun h => g0 h.1
    rw [if_neg hc, if_neg hc]
    exact Rel.pure ⟨Or.inr ⟨g1, g2, q, rfl⟩, h4⟩

theorem atof_rel {V V' : Seen} (hV : ∀ p i, (V p i).lower 0 = 0) (hL : ∀ p i, (V' p i).lower 0 = 0) {T : FloatType} {mem : List Nat} {str errno : Nat} (fb : Fallback) (h : Upto z mem str) :
    Rel (fun a b => SameAtof str a b ∧ (b.fellBack = false → Upto z mem b.strEnd))
      (atof V T fb errno mem str) (atof V' T fb errno mem str) := by
  unfold atof
  refine (krosh_rel hV hL h).bind ?_
  rintro a b ⟨rfl | ⟨g1, g2, q, rfl⟩, h3⟩
  · refine Rel.ite _ (Rel.ite _ (Rel.pure ⟨Or.inl rfl, fun _ => h3⟩) (Rel.pure ⟨Or.inl rfl, fun h => by cases h⟩))
      (Rel.pure ⟨Or.inl rfl, fun _ => h3⟩)
  · simp only at g2
    dsimp only
    rw [if_pos (show a.strEnd ≠ str by omega), if_pos (show q ≠ str by omega)]
    refine Rel.ite (R := fun a b => SameAtof str a b ∧ (b.fellBack = false → Upto z mem b.strEnd)) _
      (Rel.pure ⟨Or.inr ⟨rfl, g1, g2, q, rfl⟩, fun _ => h3⟩) (Rel.pure ⟨Or.inl rfl, fun h => by cases h⟩)


/-! ### Histories in which nothing changes -/

variable {V : Seen} {L : Locale}

theorem parseLoop_eq (h1 : ∀ mem str, eatNan V mem str = @Floaxie.eatNan L mem str)
    (h2 : ∀ mem str, eatInf V mem str = @Floaxie.eatInf L mem str) (T : FloatType) (mem : List Nat) (str : Nat) :
    ∀ (fuel : Nat) (st : PState), parseLoop V T mem str fuel st = @Floaxie.parseLoop L T mem str fuel st
  | 0, _ => rfl
  | fuel + 1, st => by
    unfold parseLoop Floaxie.parseLoop parseStep Floaxie.parseStep parseSwitch Floaxie.parseSwitch
    simp only [h1, h2, parseLoop_eq h1 h2 T mem str fuel]

theorem atof_eq (h1 : ∀ mem str, eatNan V mem str = @Floaxie.eatNan L mem str)
    (h2 : ∀ mem str, eatInf V mem str = @Floaxie.eatInf L mem str) (T : FloatType) (fb : Fallback) (errno : Nat)
    (mem : List Nat) (str : Nat) : atof V T fb errno mem str = @Floaxie.atof L T fb errno mem str := by
  have hd : ∀ (T : FloatType) (mem : List Nat) (str : Nat), parseDigits V T mem str = @Floaxie.parseDigits L T mem str := by
    intro T mem str
    unfold parseDigits Floaxie.parseDigits
    rw [parseLoop_eq h1 h2]
  unfold atof Floaxie.atof krosh Floaxie.krosh parseMantissa Floaxie.parseMantissa parseExponent Floaxie.parseExponent
  simp only [hd]
  rfl

theorem eatNanLoop_const (L : Locale) (mem : List Nat) : ∀ (fuel cp : Nat),
    eatNanLoop (fun _ _ => L) mem fuel cp = @Floaxie.eatNanLoop L mem fuel cp
  | 0, _ => rfl
  | fuel + 1, cp => by
    unfold eatNanLoop Floaxie.eatNanLoop
    simp only [eatNanLoop_const L mem fuel]

theorem eatInfLoop_const (L : Locale) (mem : List Nat) : ∀ (sfx : List Nat) (cp : Nat),
    eatInfLoop (fun _ _ => L) mem sfx cp = @Floaxie.eatInfLoop L mem sfx cp
  | [], _ => rfl
  | x :: xs, cp => by
    unfold eatInfLoop Floaxie.eatInfLoop
    simp only [eatInfLoop_const L mem xs]

/-- With a locale that does not change, these are the functions of `Model/Krosh` and `Model/Atof`. -/
theorem atof_const (L : Locale) (T : FloatType) (fb : Fallback) (errno : Nat) (mem : List Nat) (str : Nat) :
    atof (fun _ _ => L) T fb errno mem str = @Floaxie.atof L T fb errno mem str := by
  refine atof_eq (fun mem str => ?_) (fun mem str => ?_) T fb errno mem str
  · unfold eatNan Floaxie.eatNan
    simp only [eatNanLoop_const]
  · unfold eatInf Floaxie.eatInf
    simp only [eatInfLoop_const]
    rfl

theorem eatNanLoop_usual (h : ∀ p i, UsualLetters (V p i))
    (hs : ∀ c, (∀ p i, (V p i).lower c < 'a'.toNat) ∨ (∀ p i, 'a'.toNat ≤ (V p i).lower c)) (mem : List Nat) :
    ∀ (fuel cp : Nat), eatNanLoop V mem fuel cp = @Floaxie.eatNanLoop cLocale mem fuel cp
  | 0, _ => rfl
  | fuel + 1, cp => by
    unfold eatNanLoop Floaxie.eatNanLoop
    congr 1
    funext c
    rw [eatNanLoop_usual h hs mem fuel (cp + 1)]
    refine if_congr ?_ rfl rfl
    have e : ∀ i, 'a'.toNat ≤ (V cp i).lower c ∧ (V cp i).lower c ≤ 'z'.toNat ↔
        'a'.toNat ≤ toLower c ∧ toLower c ≤ 'z'.toNat := fun i => (h cp i).range c
    have e0 := e 0
    have e1 := e 1
    have k : ('a'.toNat ≤ (V cp 0).lower c ∧ (V cp 1).lower c ≤ 'z'.toNat) ↔
        'a'.toNat ≤ toLower c ∧ toLower c ≤ 'z'.toNat := by
      rcases hs c with g | g
      · have g0 := g cp 0
        have g1 := g cp 1
        constructor
        · rintro ⟨a, -⟩; omega
        · intro a; have := (e0.mpr a).1; omega
      · rw [← e1]
        exact ⟨fun a => ⟨g cp 1, a.2⟩, fun a => ⟨g cp 0, a.2⟩⟩
    rw [k]; rfl

theorem eatInfLoop_usual (h : ∀ p i, UsualLetters (V p i)) (mem : List Nat) : ∀ (sfx : List Nat) (cp : Nat),
    (∀ x ∈ sfx, 'a'.toNat ≤ x ∧ x ≤ 'z'.toNat) → eatInfLoop V mem sfx cp = @Floaxie.eatInfLoop cLocale mem sfx cp
  | [], _, _ => rfl
  | x :: xs, cp, hx => by
    unfold eatInfLoop Floaxie.eatInfLoop
    congr 1
    funext c
    rw [eatInfLoop_usual h mem xs (cp + 1) fun y hy => hx y (List.mem_cons_of_mem _ hy)]
    have := hx x List.mem_cons_self
    exact if_congr (h cp 0 c x this.1 this.2) rfl rfl

theorem atof_usual (h : ∀ p i, UsualLetters (V p i))
    (hs : ∀ c, (∀ p i, (V p i).lower c < 'a'.toNat) ∨ (∀ p i, 'a'.toNat ≤ (V p i).lower c))
    (T : FloatType) (fb : Fallback) (errno : Nat) (mem : List Nat) (str : Nat) :
    atof V T fb errno mem str = @Floaxie.atof cLocale T fb errno mem str := by
  refine atof_eq (fun mem str => ?_) (fun mem str => ?_) T fb errno mem str
  · unfold eatNan Floaxie.eatNan
    simp only [eatNanLoop_usual h hs]
  · unfold eatInf Floaxie.eatInf
    rw [eatInfLoop_usual h mem _ _ (by decide)]
    rfl

/-! ### Strings without the first letter of a word -/

variable {V' : Seen}

theorem parseLoop_plain {T : FloatType} {mem : List Nat} {str : Nat} : ∀ (fuel : Nat) (st : PState),
    (Plain mem (str + (st.pos - 1)) ∧ (st.stop = true ∨ Plain mem (str + st.pos))) →
    Rel (fun a b => b = a ∧ Plain mem (str + (a.pos - 1)))
      (parseLoop V T mem str fuel st) (parseLoop V' T mem str fuel st)
  | 0, _, _ => rfl
  | fuel + 1, st, h => by
    unfold parseLoop
    cases hs : st.stop with
    | true => exact ⟨rfl, h.1⟩
    | false =>
      simp only [Bool.false_eq_true, if_false]
      have h : Plain mem (str + st.pos) := by simpa [hs] using h.2
      obtain ⟨c, hc⟩ := h.nul.get
      unfold parseStep
      rw [rd_of hc, ok_bind, ok_bind]
      have hw := h.notWord hc
      rw [parseSwitch_same (V := V) (V' := V') hw]
      cases hA : parseSwitch V T mem str c st with
      | error e => exact rfl
      | ok a =>
        rw [ok_bind, pure_bind', pure_bind']
        obtain ⟨p1, p2⟩ := parseSwitch_pos hw hA
        refine parseLoop_plain fuel _ ⟨by simpa only [Nat.add_sub_cancel, p1] using h, ?_⟩
        by_cases h0 : c = 0
        · left; simp only [p2 h0, Bool.true_or]
        · right
          have := h.next hc h0
          simp only [p1]
          exact this

theorem parseDigits_plain {T : FloatType} {mem : List Nat} {str : Nat} (h : Plain mem str) :
    Rel (fun a b => b = a ∧ Plain mem a.strEnd) (parseDigits V T mem str) (parseDigits V' T mem str) := by
  unfold parseDigits
  refine (parseLoop_plain (V := V) (V' := V') _ _ ⟨h, Or.inr h⟩).bind ?_
  rintro a b ⟨rfl, h2⟩
  exact Rel.bind_same _ fun v => Rel.pure ⟨rfl, h2⟩

theorem parseMantissa_plain {T : FloatType} {mem : List Nat} {str : Nat} (h : Plain mem str) :
    Rel (fun a b => b = a ∧ Plain mem a.strEnd) (parseMantissa V T mem str) (parseMantissa V' T mem str) := by
  unfold parseMantissa
  refine (parseDigits_plain (V := V) (V' := V') h).bind ?_
  rintro a b ⟨rfl, h2⟩
  exact Rel.ite _ (Rel.bind_same _ fun v => Rel.pure ⟨rfl, h2⟩) (Rel.pure ⟨rfl, h2⟩)

theorem parseExponent_plain {mem : List Nat} {str : Nat} (h : Plain mem str) :
    Rel (fun a b => b = a) (parseExponent V mem str) (parseExponent V' mem str) := by
  unfold parseExponent
  obtain ⟨c, hc⟩ := h.nul.get
  rw [rd_of hc, ok_bind, ok_bind]
  by_cases he : c ≠ 'e'.toNat ∧ c ≠ 'E'.toNat
  · rw [if_pos he, if_pos he]; exact Rel.pure rfl
  rw [if_neg he, if_neg he]
  refine (parseDigits_plain (V := V) (V' := V') (h.next hc (by rintro rfl; exact he (by decide)))).bind ?_
  rintro a b ⟨rfl, h2⟩
  exact Rel.refl (R := fun a b => b = a) (fun _ => rfl) _

theorem atof_plain {T : FloatType} {mem : List Nat} {str : Nat} (fb : Fallback) (errno : Nat) (h : Plain mem str) :
    atof V' T fb errno mem str = atof V T fb errno mem str := by
  apply rel_eq
  unfold atof krosh
  refine Rel.bind (R := fun a b => b = a) ?_ fun a b h => h ▸ Rel.refl (R := fun a b => b = a) (fun _ => rfl) _
  refine (parseMantissa_plain (V := V) (V' := V') h).bind ?_
  rintro a b ⟨rfl, h2⟩
  refine Rel.ite _ ?_ (Rel.pure rfl)
  refine (parseExponent_plain (V := V) (V' := V') h2).bind ?_
  rintro a b rfl
  exact Rel.refl (R := fun a b => b = a) (fun _ => rfl) _

end Floaxie.Vary
