import Verif.Proof.Scan
import Verif.Model.Atof
import Verif.Spec.Special

/-!
# The global locale and the parser
-/

namespace Floaxie

open Spec FloatType

/-- Two outcomes are related: both fail in the same way, or both succeed with related results. -/
def Rel {α : Type} (R : α → α → Prop) (x y : M α) : Prop :=
  match x, y with
  | .ok a, .ok b => R a b
  | .error e, .error e' => e = e'
  | _, _ => False

theorem Rel.bind {α β : Type} {R : α → α → Prop} {S : β → β → Prop} {x y : M α} {f g : α → M β}
    (h : Rel R x y) (hf : ∀ a b, R a b → Rel S (f a) (g b)) : Rel S (x >>= f) (y >>= g) := by
  cases x <;> cases y <;> first | exact hf _ _ h | exact h | exact absurd h (by simp [Rel])

theorem Rel.refl {α : Type} {R : α → α → Prop} (h : ∀ a, R a a) (x : M α) : Rel R x x := by
  cases x
  · rfl
  · exact h _

theorem Rel.pure {α : Type} {R : α → α → Prop} {a b : α} (h : R a b) : Rel R (Pure.pure a : M α) (Pure.pure b) := h

theorem Rel.ite {α : Type} {R : α → α → Prop} {x x' y y' : M α} (c : Prop) [Decidable c]
    (h1 : Rel R x x') (h2 : Rel R y y') : Rel R (if c then x else y) (if c then x' else y') := by
  split_ifs
  · exact h1
  · exact h2

theorem Rel.bind_same {α β : Type} {S : β → β → Prop} (x : M α) {f g : α → M β}
    (hf : ∀ a, Rel S (f a) (g a)) : Rel S (x >>= f) (x >>= g) := by
  cases x
  · rfl
  · exact hf _

theorem bind_ok {α β : Type} {x : M α} {f : α → M β} {b : β} (h : (x >>= f) = .ok b) : ∃ a, x = .ok a ∧ f a = .ok b := by
  cases x with
  | error e => cases h
  | ok a => exact ⟨a, rfl, h⟩

variable (L : Locale)

theorem eatNanLoopL_ok {mem : List Nat} (hL : L.lower 0 = 0) : ∀ (fuel cp : Nat), Nul mem cp → mem.length < fuel + cp →
    ∃ q, cp ≤ q ∧ Nul mem q ∧ @eatNanLoop L mem fuel cp = .ok q := by
  intro fuel
  induction fuel with
  | zero =>
    intro cp h hl
    obtain ⟨z, h1, h2⟩ := h
    obtain ⟨hz, -⟩ := List.getElem?_eq_some_iff.mp h2
    omega
  | succ n ih =>
    intro cp h hl
    obtain ⟨c, hc⟩ := h.get
    unfold eatNanLoop
    rw [rd_of hc, ok_bind]
    split_ifs with hcond
    · obtain ⟨q, h1, h2, h3⟩ := ih (cp + 1) (h.next hc (by
        intro h0; subst h0; rw [hL] at hcond; revert hcond; decide)) (by omega)
      exact ⟨q, by omega, h2, h3⟩
    · exact ⟨cp, le_refl _, h, rfl⟩

/-- Whether a word is found does not depend on the locale. -/
theorem eatNanL_ok {mem : List Nat} {i : Nat} (hL : L.lower 0 = 0) (h : Nul mem i) :
    ∃ k, @eatNan L mem i = .ok k ∧ Nul mem (i + k) ∧ (k ≠ 0 ↔ ∃ c0 c1, mem[i]? = some c0 ∧ mem[i + 1]? = some c1 ∧
      (c0 = 'a'.toNat ∨ c0 = 'A'.toNat) ∧ (c1 = 'n'.toNat ∨ c1 = 'N'.toNat)) := by
  obtain ⟨c0, h0⟩ := h.get
  unfold eatNan
  rw [rd_of h0, ok_bind]
  split_ifs with a0
  · have h1' := h.next h0 (by rintro rfl; revert a0; decide)
    obtain ⟨c1, h1⟩ := h1'.get
    rw [rd_of h1, ok_bind]
    split_ifs with a1
    · have h2' := h1'.next h1 (by rintro rfl; revert a1; decide)
      obtain ⟨c2, h2⟩ := h2'.get
      have hyes : ∃ c0 c1, mem[i]? = some c0 ∧ mem[i + 1]? = some c1 ∧
          (c0 = 'a'.toNat ∨ c0 = 'A'.toNat) ∧ (c1 = 'n'.toNat ∨ c1 = 'N'.toNat) := ⟨c0, c1, h0, h1, a0, a1⟩
      rw [rd_of h2, ok_bind]
      split_ifs with a2
      · have h3' := h2'.next h2 (by rintro rfl; revert a2; decide)
        obtain ⟨q, g1, g2, g3⟩ := eatNanLoopL_ok L hL (mem.length + 1) (i + 3) h3' (by omega)
        rw [g3, ok_bind]
        obtain ⟨c, hc⟩ := g2.get
        rw [rd_of hc, ok_bind]
        split_ifs with a3
        · have := g2.next hc (by rintro rfl; revert a3; decide)
          exact ⟨_, rfl, by rwa [show i + (q - i + 1) = q + 1 by omega], by simp only [hyes, iff_true]; omega⟩
        · exact ⟨_, rfl, h2', by simp only [hyes, iff_true]; omega⟩
      · exact ⟨_, rfl, h2', by simp only [hyes, iff_true]; omega⟩
    · refine ⟨_, rfl, h, ?_⟩
      simp only [ne_eq, not_true, false_iff]
      rintro ⟨d0, d1, e0, e1, -, e2⟩
      rw [h1] at e1; cases e1; exact a1 e2
  · refine ⟨_, rfl, h, ?_⟩
    simp only [ne_eq, not_true, false_iff]
    rintro ⟨d0, d1, e0, e1, e2, -⟩
    rw [h0] at e0; cases e0; exact a0 e2

theorem eatInfLoopL_ok {mem : List Nat} (hL : L.lower 0 = 0) : ∀ (suffix : List Nat) (cp : Nat), Nul mem cp → 0 ∉ suffix →
    @eatInfLoop L mem suffix cp = .ok none ∨
      (@eatInfLoop L mem suffix cp = .ok (some (cp + suffix.length)) ∧ Nul mem (cp + suffix.length)) := by
  intro suffix
  induction suffix with
  | nil => intro cp h _; exact Or.inr ⟨rfl, h⟩
  | cons x xs ih =>
    intro cp h hx
    obtain ⟨c, hc⟩ := h.get
    unfold eatInfLoop
    rw [rd_of hc, ok_bind]
    split_ifs with a
    · have := ih (cp + 1) (h.next hc (by
        rintro rfl
        exact hx (by rw [← a, hL]; exact List.mem_cons_self))) (fun h => hx (List.mem_cons_of_mem _ h))
      rw [List.length_cons, show cp + (xs.length + 1) = cp + 1 + xs.length by omega]
      exact this
    · exact Or.inl rfl

theorem eatInfL_ok {mem : List Nat} {i : Nat} (hL : L.lower 0 = 0) (h : Nul mem i) :
    ∃ k, @eatInf L mem i = .ok k ∧ Nul mem (i + k) ∧ (k ≠ 0 ↔ ∃ c0 c1, mem[i]? = some c0 ∧ mem[i + 1]? = some c1 ∧
      (c0 = 'n'.toNat ∨ c0 = 'N'.toNat) ∧ (c1 = 'f'.toNat ∨ c1 = 'F'.toNat)) := by
  obtain ⟨c0, h0⟩ := h.get
  unfold eatInf
  rw [rd_of h0, ok_bind]
  split_ifs with a0
  · have h1' := h.next h0 (by rintro rfl; revert a0; decide)
    obtain ⟨c1, h1⟩ := h1'.get
    rw [rd_of h1, ok_bind]
    split_ifs with a1
    · have h2' := h1'.next h1 (by rintro rfl; revert a1; decide)
      obtain ⟨c2, h2⟩ := h2'.get
      have hyes : ∃ c0 c1, mem[i]? = some c0 ∧ mem[i + 1]? = some c1 ∧
          (c0 = 'n'.toNat ∨ c0 = 'N'.toNat) ∧ (c1 = 'f'.toNat ∨ c1 = 'F'.toNat) := ⟨c0, c1, h0, h1, a0, a1⟩
      rw [rd_of h2, ok_bind]
      split_ifs with a2
      · have h3' := h2'.next h2 (by rintro rfl; revert a2; decide)
        rcases eatInfLoopL_ok L hL ['n'.toNat, 'i'.toNat, 't'.toNat, 'y'.toNat] (i + 3) h3' (by decide) with g | ⟨g, g'⟩
        · rw [g, ok_bind]; exact ⟨_, rfl, h2', by simp only [hyes, iff_true]; omega⟩
        · rw [g, ok_bind]
          exact ⟨_, rfl, (Nat.add_sub_cancel' (show i ≤ i + 3 + _ by omega)).symm ▸ g', by simp only [hyes, iff_true]; omega⟩
      · exact ⟨_, rfl, h2', by simp only [hyes, iff_true]; omega⟩
    · refine ⟨_, rfl, h, ?_⟩
      simp only [ne_eq, not_true, false_iff]
      rintro ⟨d0, d1, e0, e1, -, e2⟩
      rw [h1] at e1; cases e1; exact a1 e2
  · refine ⟨_, rfl, h, ?_⟩
    simp only [ne_eq, not_true, false_iff]
    rintro ⟨d0, d1, e0, e1, e2, -⟩
    rw [h0] at e0; cases e0; exact a0 e2

/-- Two states of the scan that differ at most in how much of a word was eaten. -/
def SameState (st st' : PState) : Prop :=
  st' = st ∨ (st.special ≠ .no ∧ 2 ≤ st.pos ∧ 2 ≤ st'.pos ∧ ∃ q, st' = { st with pos := q })

theorem Nul.prev {mem : List Nat} {i j : Nat} (h : Nul mem i) (hj : j ≤ i) : Nul mem j := by
  obtain ⟨z, h1, h2⟩ := h
  exact ⟨z, by omega, h2⟩

/-- The first letter of a word. -/
theorem parseSwitch_word (hL : L.lower 0 = 0) {T : FloatType} {mem : List Nat} {str c : Nat} {st : PState}
    (h : Nul mem (str + st.pos)) (hc : mem[str + st.pos]? = some c) (hwl : WordLetter c) :
    Rel (fun a b => SameState a b ∧ a.stop = true ∧ Nul mem (str + a.pos) ∧ Nul mem (str + b.pos))
      (@parseSwitch cLocale T mem str c st) (@parseSwitch L T mem str c st) := by
  have e : (c = 'n'.toNat ∨ c = 'N'.toNat) ∨ (c = 'i'.toNat ∨ c = 'I'.toNat) := by unfold WordLetter at hwl; tauto
  have n1 : ¬ c = '0'.toNat := by rcases e with (rfl | rfl) | (rfl | rfl) <;> decide
  have n2 : ¬ ('1'.toNat ≤ c ∧ c ≤ '9'.toNat) := by rcases e with (rfl | rfl) | (rfl | rfl) <;> decide
  have n3 : ¬ c = '.'.toNat := by rcases e with (rfl | rfl) | (rfl | rfl) <;> decide
  have hn := h.next hc (by rintro rfl; revert e; decide)
  unfold parseSwitch
  rw [if_neg n1, if_neg n1, if_neg n2, if_neg n2, if_neg n3, if_neg n3]
  by_cases hw : c = 'n'.toNat ∨ c = 'N'.toNat
  · rw [if_pos hw, if_pos hw]
    obtain ⟨k, e1, u, e2⟩ := eatNanL_ok cLocale rfl hn
    obtain ⟨k', e3, u', e4⟩ := eatNanL_ok L hL hn
    refine Rel.ite _ ?_ (Rel.pure ⟨Or.inl rfl, rfl, h, h⟩)
    rw [e1, e3, ok_bind, ok_bind]
    have hkk : k' ≠ 0 ↔ k ≠ 0 := by rw [e2, e4]
    by_cases hk : k = 0
    · have hk' : k' = 0 := by by_contra hne; exact hkk.mp hne hk
      rw [hk, hk']; exact Rel.pure ⟨Or.inl rfl, rfl, hn, hn⟩
    · have hk' := hkk.mpr hk
      rw [if_pos hk, if_pos hk']
      exact Rel.pure ⟨Or.inr ⟨by simp only; decide, by simp only; omega, by simp only; omega, st.pos + (k' + 1), rfl⟩, rfl,
      by simpa only [show str + (st.pos + (k + 1)) = str + st.pos + 1 + k by omega] using u,
      by simpa only [show str + (st.pos + (k' + 1)) = str + st.pos + 1 + k' by omega] using u'⟩
  have hi : c = 'i'.toNat ∨ c = 'I'.toNat := e.resolve_left hw
  rw [if_neg hw, if_neg hw, if_pos hi, if_pos hi]
  obtain ⟨k, e1, u, e2⟩ := eatInfL_ok cLocale rfl hn
  obtain ⟨k', e3, u', e4⟩ := eatInfL_ok L hL hn
  refine Rel.ite _ ?_ (Rel.pure ⟨Or.inl rfl, rfl, h, h⟩)
  rw [e1, e3, ok_bind, ok_bind]
  have hkk : k' ≠ 0 ↔ k ≠ 0 := by rw [e2, e4]
  by_cases hk : k = 0
  · have hk' : k' = 0 := by by_contra hne; exact hkk.mp hne hk
    rw [hk, hk']; exact Rel.pure ⟨Or.inl rfl, rfl, hn, hn⟩
  · have hk' := hkk.mpr hk
    rw [if_pos hk, if_pos hk']
    exact Rel.pure ⟨Or.inr ⟨by simp only; decide, by simp only; omega, by simp only; omega, st.pos + (k' + 1), rfl⟩, rfl,
      by simpa only [show str + (st.pos + (k + 1)) = str + st.pos + 1 + k by omega] using u,
      by simpa only [show str + (st.pos + (k' + 1)) = str + st.pos + 1 + k' by omega] using u'⟩

/-- Not the first letter of a word: the locale is not looked at. -/
theorem parseSwitch_same {T : FloatType} {mem : List Nat} {str c : Nat} {st : PState} (hc : ¬ WordLetter c) :
    @parseSwitch L T mem str c st = @parseSwitch cLocale T mem str c st := by
  have h1 : ¬ (c = 'n'.toNat ∨ c = 'N'.toNat) := fun h => hc (by unfold WordLetter; tauto)
  have h2 : ¬ (c = 'i'.toNat ∨ c = 'I'.toNat) := fun h => hc (by unfold WordLetter; tauto)
  unfold parseSwitch
  simp only [if_neg h1, if_neg h2]

theorem flushZeros_pos (κ : Nat) (st : PState) : (flushZeros κ st).pos = st.pos := by
  unfold flushZeros; split_ifs <;> rfl

theorem pushDigit_pos {mem : List Nat} {str κ c : Nat} {st st' : PState} (h : pushDigit mem str κ c st = .ok st') :
    st'.pos = st.pos := by
  unfold pushDigit at h
  by_cases h1 : st.digits.length < κ
  · rw [if_pos h1] at h; cases h; rfl
  rw [if_neg h1] at h
  obtain ⟨a, ha, hb⟩ := bind_ok h
  cases hb
  show a.pos = st.pos
  by_cases h2 : (!st.fracCalculated) = true
  · rw [if_pos h2] at ha
    dsimp only at ha
    split_ifs at ha with h3
    obtain ⟨x, -, hx⟩ := bind_ok ha
    cases hx; rfl
  · rw [if_neg h2] at ha
    cases ha; rfl

/-- Where the scan is after a character that starts no word. -/
theorem parseSwitch_pos {T : FloatType} {mem : List Nat} {str c : Nat} {st st' : PState} (hc : ¬ WordLetter c)
    (h : @parseSwitch cLocale T mem str c st = .ok st') : st'.pos = st.pos ∧ (c = 0 → st'.stop = true) := by
  have h1 : ¬ (c = 'n'.toNat ∨ c = 'N'.toNat) := fun h => hc (by unfold WordLetter; tauto)
  have h2 : ¬ (c = 'i'.toNat ∨ c = 'I'.toNat) := fun h => hc (by unfold WordLetter; tauto)
  unfold parseSwitch at h
  rw [if_neg h1, if_neg h2] at h
  split_ifs at h with a0 a1 a2 a3
  · cases h
    exact ⟨by unfold stepZero; split_ifs <;> rfl, by rintro rfl; exact absurd a0 (by decide)⟩
  · exact ⟨by rw [pushDigit_pos h, flushZeros_pos], by rintro rfl; exact absurd a1 (by decide)⟩
  · cases h; exact ⟨rfl, by rintro rfl; exact absurd a2 (by decide)⟩
  · cases h; exact ⟨rfl, by rintro rfl; exact absurd a3.1 (by decide)⟩
  · cases h; exact ⟨rfl, fun _ => rfl⟩

theorem SameState.stop {a b : PState} (h : SameState a b) : b.stop = a.stop := by
  rcases h with rfl | ⟨-, -, -, q, rfl⟩ <;> rfl

theorem parseLoop_rel (hL : L.lower 0 = 0) {T : FloatType} {mem : List Nat} {str : Nat} : ∀ (fuel : Nat) (st : PState),
    ((st.stop = true ∧ Nul mem (str + (st.pos - 1))) ∨ Nul mem (str + st.pos)) →
    Rel (fun a b => SameState a b ∧ Nul mem (str + (a.pos - 1)) ∧ Nul mem (str + (b.pos - 1)))
      (@parseLoop cLocale T mem str fuel st) (@parseLoop L T mem str fuel st)
  | 0, _, _ => rfl
  | fuel + 1, st, h => by
    unfold parseLoop
    cases hs : st.stop with
    | true =>
      have : Nul mem (str + (st.pos - 1)) := by
        rcases h with h | h
        · exact h.2
        · exact h.prev (by omega)
      exact ⟨Or.inl rfl, this, this⟩
    | false =>
      simp only [Bool.false_eq_true, if_false]
      have h : Nul mem (str + st.pos) := by simpa [hs] using h
      obtain ⟨c, hc⟩ := h.get
      unfold parseStep
      rw [rd_of hc, ok_bind, ok_bind]
      by_cases hw : WordLetter c
      · refine Rel.bind (R := fun a b => SameState a b ∧ a.stop = true ∧ Nul mem (str + (a.pos - 1)) ∧ Nul mem (str + (b.pos - 1))) ?_ ?_
        · refine (parseSwitch_word L hL (T := T) h hc hw).bind ?_
          rintro a b ⟨h1, h2, h3, h4⟩
          refine Rel.pure ⟨?_, by simp only [h2, Bool.true_or], by simpa only [Nat.add_sub_cancel] using h3,
            by simpa only [Nat.add_sub_cancel] using h4⟩
          rcases h1 with rfl | ⟨g0, g2, g3, q, rfl⟩
          · exact Or.inl rfl
          · simp only at g3
            exact Or.inr ⟨g0, by simp only; omega, by simp only; omega, q + 1, by simp only [h2, Bool.true_or]⟩
        · rintro a b ⟨h1, h2, h3⟩
          cases fuel with
          | zero => exact rfl
          | succ f =>
            unfold parseLoop
            rw [h1.stop, h2]
            exact Rel.pure ⟨h1, h3⟩
      · rw [parseSwitch_same L hw]
        cases hA : @parseSwitch cLocale T mem str c st with
        | error e => exact rfl
        | ok a =>
          rw [ok_bind, pure_bind', pure_bind']
          obtain ⟨p1, p2⟩ := parseSwitch_pos hw hA
          refine parseLoop_rel hL fuel _ ?_
          by_cases h0 : c = 0
          · left
            simp only [p2 h0, Bool.true_or, p1, Nat.add_sub_cancel, true_and]
            exact h
          · right
            have := h.next hc h0
            simp only [p1]
            exact this

/-- Two results of the digit scan that differ at most in the end of a word. -/
def SameDigits (str : Nat) (d d' : DigitParseResult) : Prop :=
  d' = d ∨ (d.special ≠ .no ∧ str < d.strEnd ∧ str < d'.strEnd ∧ ∃ q, d' = { d with strEnd := q })

theorem parseDigits_rel (hL : L.lower 0 = 0) {T : FloatType} {mem : List Nat} {str : Nat} (h : Nul mem str) :
    Rel (fun a b => SameDigits str a b ∧ str ≤ a.strEnd ∧ Nul mem a.strEnd ∧ Nul mem b.strEnd)
      (@parseDigits cLocale T mem str) (@parseDigits L T mem str) := by
  unfold parseDigits
  refine (parseLoop_rel L hL _ _ (Or.inr h)).bind ?_
  rintro a b ⟨h1, h2, h3⟩
  have hd : b.digits = a.digits := by rcases h1 with rfl | ⟨-, -, -, q, rfl⟩ <;> rfl
  rw [hd]
  refine Rel.bind_same _ fun v => Rel.pure ⟨?_, Nat.le_add_right _ _, h2, h3⟩
  rcases h1 with rfl | ⟨g0, g2, g3, q, rfl⟩
  · exact Or.inl rfl
  · simp only at g3
    exact Or.inr ⟨g0, by simp only; omega, by simp only; omega, str + (q - 1), rfl⟩

/-- Two results of `parse_mantissa` that differ at most in the end of a word. -/
def SameMantissa (str : Nat) (d d' : MantissaParseResult) : Prop :=
  d' = d ∨ (d.special ≠ .no ∧ str < d.strEnd ∧ str < d'.strEnd ∧ ∃ q, d' = { d with strEnd := q })

theorem parseMantissa_rel (hL : L.lower 0 = 0) {T : FloatType} {mem : List Nat} {str : Nat} (h : Nul mem str) :
    Rel (fun a b => SameMantissa str a b ∧ str ≤ a.strEnd ∧ Nul mem a.strEnd ∧ Nul mem b.strEnd)
      (@parseMantissa cLocale T mem str) (@parseMantissa L T mem str) := by
  unfold parseMantissa
  refine (parseDigits_rel L hL h).bind ?_
  rintro a b ⟨h1, h2, h3, h4⟩
  rcases h1 with rfl | ⟨g0, g1, g2, q, rfl⟩
  · refine Rel.ite _ ?_ (Rel.pure ⟨Or.inl rfl, h2, h3, h4⟩)
    exact Rel.bind_same _ fun w => Rel.pure ⟨Or.inl rfl, h2, h3, h4⟩
  · rw [if_neg g0, if_neg g0]
    exact Rel.pure ⟨Or.inr ⟨g0, g1, g2, q, rfl⟩, h2, h3, h4⟩

theorem parseExponent_rel (hL : L.lower 0 = 0) {mem : List Nat} {str : Nat} (h : Nul mem str) :
    Rel (fun a b => b.value = a.value ∧ (b.strEnd = a.strEnd ∨ (str < a.strEnd ∧ str < b.strEnd)) ∧ Nul mem b.strEnd)
      (@parseExponent cLocale mem str) (@parseExponent L mem str) := by
  unfold parseExponent
  obtain ⟨c, hc⟩ := h.get
  rw [rd_of hc, ok_bind, ok_bind]
  by_cases he : c ≠ 'e'.toNat ∧ c ≠ 'E'.toNat
  · rw [if_pos he, if_pos he]; exact Rel.pure ⟨rfl, Or.inl rfl, h⟩
  rw [if_neg he, if_neg he]
  refine (parseDigits_rel L hL (h.next hc (by rintro rfl; exact he (by decide)))).bind ?_
  rintro a b ⟨h1, h2, h3, h4⟩
  rcases h1 with rfl | ⟨g0, g1, g2, q, rfl⟩
  · exact Rel.bind_same _ fun w => Rel.bind_same _ fun v => Rel.pure ⟨rfl, Or.inl rfl, h4⟩
  · refine Rel.bind_same _ fun w => Rel.bind_same _ fun v => Rel.pure ⟨rfl, Or.inr ⟨?_, ?_⟩, h4⟩
    · simp only; omega
    · simp only at g2 ⊢; omega

/-- Two results of `krosh` that differ at most in the end, and not in whether anything was read. -/
def SameKrosh (str : Nat) (d d' : KroshResult) : Prop :=
  d' = d ∨ (str < d.strEnd ∧ str < d'.strEnd ∧ ∃ q, d' = { d with strEnd := q })

theorem krosh_rel (hL : L.lower 0 = 0) {T : FloatType} {mem : List Nat} {str : Nat} (h : Nul mem str) :
    Rel (fun a b => SameKrosh str a b ∧ Nul mem b.strEnd) (@krosh cLocale T mem str) (@krosh L T mem str) := by
  unfold krosh
  refine (parseMantissa_rel L hL h).bind ?_
  rintro a b ⟨h1, h2, h3, h4⟩
  rcases h1 with h1 | ⟨g0, g1, g2, q, rfl⟩
  · rw [h1]
    by_cases hc : a.special = .no ∧ a.value.f ≠ 0
    · rw [if_pos hc, if_pos hc]
      refine (parseExponent_rel L hL h3).bind ?_
      rintro x y ⟨e1, e2, e4⟩
      rw [e1]
      have key : ∀ (v : Nat) (s : Status) (c : Bool), SameKrosh str ⟨v, x.strEnd, s, c⟩ ⟨v, y.strEnd, s, c⟩ ∧
          Nul mem (KroshResult.strEnd ⟨v, y.strEnd, s, c⟩) := by
        intro v s c
        refine ⟨?_, e4⟩
        rcases e2 with e2 | ⟨e2, e3⟩
        · rw [e2]; exact Or.inl rfl
        · exact Or.inr ⟨by simp only; omega, by simp only; omega, y.strEnd, rfl⟩
      refine Rel.bind_same _ fun K => ?_
      refine Rel.ite _ (Rel.ite _ (Rel.pure (key _ _ _)) (Rel.pure (key _ _ _))) ?_
      exact Rel.bind_same _ fun w => Rel.bind_same _ fun w' => Rel.bind_same _ fun v => Rel.pure (key _ _ _)
    · rw [if_neg hc, if_neg hc]
      exact Rel.pure ⟨Or.inl rfl, h3⟩
  · have hc : ¬ (a.special = .no ∧ a.value.f ≠ 0) := fun h => g0 h.1
    rw [if_neg hc, if_neg hc]
    exact Rel.pure ⟨Or.inr ⟨g1, g2, q, rfl⟩, h4⟩

/-- Two results of `atof` that differ at most in the end, and not in whether anything was read. -/
def SameAtof (str : Nat) (d d' : AtofResult) : Prop :=
  d' = d ∨ (d.fellBack = false ∧ str < d.strEnd ∧ str < d'.strEnd ∧ ∃ q, d' = { d with strEnd := q })

theorem atof_rel (hL : L.lower 0 = 0) {T : FloatType} {mem : List Nat} {str errno : Nat} (fb : Fallback) (h : Nul mem str) :
    Rel (fun a b => SameAtof str a b ∧ (b.fellBack = false → Nul mem b.strEnd))
      (@atof cLocale T fb errno mem str) (@atof L T fb errno mem str) := by
  unfold atof
  refine (krosh_rel L hL h).bind ?_
  rintro a b ⟨rfl | ⟨g1, g2, q, rfl⟩, h3⟩
  · refine Rel.ite _ (Rel.ite _ (Rel.pure ⟨Or.inl rfl, fun _ => h3⟩) (Rel.pure ⟨Or.inl rfl, fun h => by cases h⟩))
      (Rel.pure ⟨Or.inl rfl, fun _ => h3⟩)
  · simp only at g2
    dsimp only
    rw [if_pos (show a.strEnd ≠ str by omega), if_pos (show q ≠ str by omega)]
    refine Rel.ite (R := fun a b => SameAtof str a b ∧ (b.fellBack = false → Nul mem b.strEnd)) _
      (Rel.pure ⟨Or.inr ⟨rfl, g1, g2, q, rfl⟩, fun _ => h3⟩) (Rel.pure ⟨Or.inl rfl, fun h => by cases h⟩)

/-! ### Locales that treat the letters a-z as the "C" locale does -/

/-- The locale maps exactly the ASCII letters to ASCII lower case letters, as usual. -/
def UsualLetters : Prop := ∀ c x : Nat, 'a'.toNat ≤ x → x ≤ 'z'.toNat → (L.lower c = x ↔ toLower c = x)

variable {L}

theorem UsualLetters.range (h : UsualLetters L) (c : Nat) :
    ('a'.toNat ≤ L.lower c ∧ L.lower c ≤ 'z'.toNat) ↔ ('a'.toNat ≤ toLower c ∧ toLower c ≤ 'z'.toNat) := by
  constructor
  · rintro ⟨h1, h2⟩
    rw [(h c _ h1 h2).mp rfl]; exact ⟨h1, h2⟩
  · rintro ⟨h1, h2⟩
    rw [(h c _ h1 h2).mpr rfl]; exact ⟨h1, h2⟩

theorem eatNanLoop_usual (h : UsualLetters L) (mem : List Nat) : ∀ (fuel cp : Nat),
    @eatNanLoop L mem fuel cp = @eatNanLoop cLocale mem fuel cp
  | 0, _ => rfl
  | fuel + 1, cp => by
    unfold eatNanLoop
    congr 1
    funext c
    rw [eatNanLoop_usual h mem fuel (cp + 1)]
    refine if_congr ?_ rfl rfl
    rw [h.range c]; rfl

theorem eatNan_usual (h : UsualLetters L) (mem : List Nat) (str : Nat) :
    @eatNan L mem str = @eatNan cLocale mem str := by
  unfold eatNan
  simp only [eatNanLoop_usual h]

theorem eatInfLoop_usual (h : UsualLetters L) (mem : List Nat) : ∀ (sfx : List Nat) (cp : Nat),
    (∀ x ∈ sfx, 'a'.toNat ≤ x ∧ x ≤ 'z'.toNat) → @eatInfLoop L mem sfx cp = @eatInfLoop cLocale mem sfx cp
  | [], _, _ => rfl
  | x :: xs, cp, hx => by
    unfold eatInfLoop
    congr 1
    funext c
    rw [eatInfLoop_usual h mem xs (cp + 1) fun y hy => hx y (List.mem_cons_of_mem _ hy)]
    have := hx x List.mem_cons_self
    exact if_congr (h c x this.1 this.2) rfl rfl

theorem eatInf_usual (h : UsualLetters L) (mem : List Nat) (str : Nat) :
    @eatInf L mem str = @eatInf cLocale mem str := by
  unfold eatInf
  rw [eatInfLoop_usual h mem _ _ (by decide)]

theorem parseLoop_usual (h : UsualLetters L) (T : FloatType) (mem : List Nat) (str : Nat) : ∀ (fuel : Nat) (st : PState),
    @parseLoop L T mem str fuel st = @parseLoop cLocale T mem str fuel st
  | 0, _ => rfl
  | fuel + 1, st => by
    unfold parseLoop parseStep parseSwitch
    simp only [eatInf_usual h, eatNan_usual h, parseLoop_usual h T mem str fuel]

theorem parseDigits_usual (h : UsualLetters L) (T : FloatType) (mem : List Nat) (str : Nat) :
    @parseDigits L T mem str = @parseDigits cLocale T mem str := by
  unfold parseDigits
  rw [parseLoop_usual h]

theorem atof_usual (h : UsualLetters L) (T : FloatType) (fb : Fallback) (errno : Nat) (mem : List Nat) (str : Nat) :
    @atof L T fb errno mem str = @atof cLocale T fb errno mem str := by
  unfold atof krosh parseMantissa parseExponent
  simp only [parseDigits_usual h]

/-! ### Strings without the first letter of a word -/

/-- From position `i` to the end of the string no letter a word can start with. -/
def Plain (mem : List Nat) (i : Nat) : Prop :=
  ∃ z, i ≤ z ∧ mem[z]? = some 0 ∧ ∀ j c, i ≤ j → j < z → mem[j]? = some c → ¬ WordLetter c

theorem Plain.nul {mem : List Nat} {i : Nat} (h : Plain mem i) : Nul mem i := by
  obtain ⟨z, h1, h2, -⟩ := h; exact ⟨z, h1, h2⟩

theorem Plain.notWord {mem : List Nat} {i c : Nat} (h : Plain mem i) (hc : mem[i]? = some c) : ¬ WordLetter c := by
  obtain ⟨z, h1, h2, h3⟩ := h
  rcases Nat.lt_or_eq_of_le h1 with h | rfl
  · exact h3 i c le_rfl h hc
  · rw [h2] at hc; cases hc; unfold WordLetter; decide

theorem Plain.next {mem : List Nat} {i c : Nat} (h : Plain mem i) (hc : mem[i]? = some c) (h0 : c ≠ 0) : Plain mem (i + 1) := by
  obtain ⟨z, h1, h2, h3⟩ := h
  rcases Nat.lt_or_eq_of_le h1 with h | rfl
  · exact ⟨z, h, h2, fun j c hj => h3 j c (by omega)⟩
  · rw [h2] at hc; cases hc; exact absurd rfl h0

theorem parseLoop_plain {T : FloatType} {mem : List Nat} {str : Nat} : ∀ (fuel : Nat) (st : PState),
    (Plain mem (str + (st.pos - 1)) ∧ (st.stop = true ∨ Plain mem (str + st.pos))) →
    Rel (fun a b => b = a ∧ Plain mem (str + (a.pos - 1)))
      (@parseLoop cLocale T mem str fuel st) (@parseLoop L T mem str fuel st)
  | 0, _, _ => rfl
  | fuel + 1, st, h => by
    unfold parseLoop
    cases hs : st.stop with
    | true => exact ⟨rfl, h.1⟩
    | false =>
      simp only [Bool.false_eq_true, if_false]
      have h : Plain mem (str + st.pos) := by simpa [hs] using h.2
      obtain ⟨c, hc⟩ := h.nul.get
      unfold parseStep
      rw [rd_of hc, ok_bind, ok_bind]
      have hw := h.notWord hc
      rw [parseSwitch_same L hw]
      cases hA : @parseSwitch cLocale T mem str c st with
      | error e => exact rfl
      | ok a =>
        rw [ok_bind, pure_bind', pure_bind']
        obtain ⟨p1, p2⟩ := parseSwitch_pos hw hA
        refine parseLoop_plain fuel _ ⟨by simpa only [Nat.add_sub_cancel, p1] using h, ?_⟩
        by_cases h0 : c = 0
        · left; simp only [p2 h0, Bool.true_or]
        · right
          have := h.next hc h0
          simp only [p1]
          exact this

theorem parseDigits_plain {T : FloatType} {mem : List Nat} {str : Nat} (h : Plain mem str) :
    Rel (fun a b => b = a ∧ Plain mem a.strEnd) (@parseDigits cLocale T mem str) (@parseDigits L T mem str) := by
  unfold parseDigits
  refine (parseLoop_plain (L := L) _ _ ⟨h, Or.inr h⟩).bind ?_
  rintro a b ⟨rfl, h2⟩
  exact Rel.bind_same _ fun v => Rel.pure ⟨rfl, h2⟩

theorem parseMantissa_plain {T : FloatType} {mem : List Nat} {str : Nat} (h : Plain mem str) :
    Rel (fun a b => b = a ∧ Plain mem a.strEnd) (@parseMantissa cLocale T mem str) (@parseMantissa L T mem str) := by
  unfold parseMantissa
  refine (parseDigits_plain (L := L) h).bind ?_
  rintro a b ⟨rfl, h2⟩
  exact Rel.ite _ (Rel.bind_same _ fun v => Rel.pure ⟨rfl, h2⟩) (Rel.pure ⟨rfl, h2⟩)

theorem parseExponent_plain {mem : List Nat} {str : Nat} (h : Plain mem str) :
    Rel (fun a b => b = a) (@parseExponent cLocale mem str) (@parseExponent L mem str) := by
  unfold parseExponent
  obtain ⟨c, hc⟩ := h.nul.get
  rw [rd_of hc, ok_bind, ok_bind]
  by_cases he : c ≠ 'e'.toNat ∧ c ≠ 'E'.toNat
  · rw [if_pos he, if_pos he]; exact Rel.pure rfl
  rw [if_neg he, if_neg he]
  refine (parseDigits_plain (L := L) (h.next hc (by rintro rfl; exact he (by decide)))).bind ?_
  rintro a b ⟨rfl, h2⟩
  exact Rel.refl (R := fun a b => b = a) (fun _ => rfl) _

theorem rel_eq {α : Type} {x y : M α} (h : Rel (fun a b => b = a) x y) : y = x := by
  cases x <;> cases y <;> first | exact congrArg _ h | exact congrArg _ h.symm | exact absurd h (by simp [Rel])

theorem atof_plain {T : FloatType} {mem : List Nat} {str : Nat} (fb : Fallback) (errno : Nat) (h : Plain mem str) :
    @atof L T fb errno mem str = @atof cLocale T fb errno mem str := by
  apply rel_eq
  unfold atof krosh
  refine Rel.bind (R := fun a b => b = a) ?_ fun a b h => h ▸ Rel.refl (R := fun a b => b = a) (fun _ => rfl) _
  refine (parseMantissa_plain (L := L) h).bind ?_
  rintro a b ⟨rfl, h2⟩
  refine Rel.ite _ ?_ (Rel.pure rfl)
  refine (parseExponent_plain (L := L) h2).bind ?_
  rintro a b rfl
  exact Rel.refl (R := fun a b => b = a) (fun _ => rfl) _

end Floaxie
