import Verif.Prop.DropIn

/-!
# `atof` in place of the C library's function (C82): zeros with an exponent part, hexadecimal numbers
-/

namespace Floaxie

open Spec FloatType

/-- **C82, zeros with an exponent part.** `strtod` consumes the exponent part, `atof` stops in front of it; both return the same
signed zero and leave `errno` alone. -/
theorem C82_zero_exponent (T : FloatType) (L : NumLocale) (hL : L.point = '.'.toNat) (fb : Fallback) (errno : Nat)
    (mem : List Nat) (str : Nat) (n : Numeral) (h : NumeralAt mem str n) (h0 : ∀ d ∈ n.int ++ n.fracDigits, d = 0)
    (x : ExpPart) (hE : n.exp = some x) (v len errno' : Nat) (hs : Strtod T L errno (mem.drop str) v len errno') :
    len = n.text.length ∧ ∃ r, atof T fb errno mem str = .ok r ∧ r.value = v ∧ r.strEnd + x.text.length = str + len ∧ r.errno = errno' := by
  have hat := C34_zero T fb errno mem str n h h0
  have hnx : n.expText = x.text := by unfold Numeral.expText; rw [hE]
  obtain ⟨c, R, hd, he⟩ := h.text
  have hm : n.mantText ≠ [] := by
    obtain ⟨s, i, f, e⟩ := n
    have h1 := h.valid.1
    rcases i with _ | ⟨d, i⟩
    · rcases f with _ | f
      · exact absurd rfl h1
      · simp [Numeral.mantText]
    · simp [Numeral.mantText]
  have hhex : ∀ t, Hexadecimal '.'.toNat t → ¬ t <+: n.text ++ c :: R := by
    intro t ht hp
    let n0 : Numeral := { n with exp := none }
    obtain ⟨u, U, hU, hu⟩ : ∃ u U, x.text = u :: U ∧ (u ≠ 'x'.toNat ∧ u ≠ 'X'.toNat) := by
      refine ⟨_, _, rfl, ?_⟩
      split_ifs <;> decide
    refine zero_not_hex (n := n0) (c := u) (R := U ++ c :: R) ⟨h.valid.1, by intro e he; cases he⟩ rfl hu ht ?_
    have e1 : n0.text = scanText n := by
      show scanText n ++ [] = _
      simp
    rw [e1, ← List.cons_append, ← hU, ← hnx, ← List.append_assoc]
    exact hp
  have hsub : IsSubject '.'.toNat n.text (n.text ++ c :: R) := by
    refine ⟨.decimal n h.valid, List.prefix_append _ _, fun t' ht' hp => ?_⟩
    cases ht' with
    | hexadecimal t' ht => exact (hhex _ ht hp).elim
    | word s b w hw =>
      refine (not_word (n := n) (R := n.expText ++ c :: R) hm hw (s := s) ?_).elim
      rw [← List.append_assoc]; exact hp
    | decimal n' hv' =>
      rw [localText_dot] at hp ⊢
      by_contra hl
      push Not at hl
      rcases List.prefix_or_prefix_of_prefix hp (List.prefix_append n.text (c :: R)) with h | ⟨w, hw⟩
      · exact absurd h.length_le (by omega)
      · rcases w with _ | ⟨c', w⟩
        · rw [List.append_nil] at hw
          rw [hw] at hl; omega
        · rw [← hw, List.prefix_append_right_inj, List.cons_prefix_cons] at hp
          rw [hp.1] at hw
          exact not_extended h.valid he hw
  have hz : n.value = 0 := by
    have : n.absValue = 0 := by unfold Numeral.absValue; rw [digitsVal_all_zero h0]; simp
    unfold Numeral.value; rw [this]; simp
  have hcall : StrtodCall T L errno [] (n.text ++ c :: R) v len errno' := by
    rw [hd] at hs
    obtain ⟨x, X, hX, hxs⟩ : ∃ x X, n.text ++ c :: R = x :: X ∧ ¬ L.space x := by
      obtain ⟨s, I, F, E⟩ := n
      rcases s with _ | _ | _
      · rcases I with _ | ⟨d, I⟩
        · rcases F with _ | F
          · exact absurd rfl hm
          · exact ⟨_, _, rfl, fun h => (L.space_ok _ h).2.2.2.1 rfl⟩
        · exact ⟨_, _, rfl, fun h => (L.space_ok _ h).1 (isDig_digitChar d)⟩
      · exact ⟨_, _, rfl, fun h => (L.space_ok _ h).2.1 rfl⟩
      · exact ⟨_, _, rfl, fun h => (L.space_ok _ h).2.2.1 rfl⟩
    rw [hX] at hs ⊢
    exact strtod_call hxs hs
  have conv : ∀ n' : Numeral, IsSubject L.point (n'.localText L.point) (n.text ++ c :: R) → n' = n := fun n' hs => by
    rw [hL, localText_dot] at hs
    exact numeral_text_inj _ _ (isSubject_unique hs hsub)
  cases hcall with
  | nothing _ hno _ => exact absurd hsub.here (hno _ (by rw [hL]; exact hsub.form))
  | number n' v e' hv hs' h5 => exact absurd hz (conv _ hs' ▸ h5)
  | zero n' hv hs' h5 =>
    have := conv _ hs'
    subst this
    have hlen : (n'.localText L.point).length = n'.text.length := by rw [hL, localText_dot]
    refine ⟨by simp [hlen], _, hat, ?_, ?_, rfl⟩
    · show (if n'.sign = some true then neg T 0 else 0) = _
      unfold Numeral.isNeg
      rcases n'.sign with _ | _ | _ <;> cases T <;> rfl
    · show str + (n'.text.length - n'.expText.length) + x.text.length = _
      have : n'.text.length = (scanText n').length + n'.expText.length := by
        rw [← List.length_append]; rfl
      rw [hlen, hnx, List.length_nil]
      rw [hnx] at this
      omega
  | overflow n' hv hs' h5 =>
    rw [conv _ hs', hz, abs_zero] at h5
    exact absurd h5 (not_le.mpr (overflowThreshold_pos T))
  | hexadecimal t v e' h5 hs' => rw [hL] at h5; exact (hhex _ h5 hs'.here).elim
  | word s b w v h5 hs' _ =>
    refine (not_word (n := n) (R := n.expText ++ c :: R) hm h5 (s := s) ?_).elim
    rw [← List.append_assoc]; exact hs'.here

/-- The hypotheses can be met: "-0.00e7", "C" locale. -/
example : ∃ v len e, Strtod .double cNum 0 ((minusZeroExp.text ++ [0]).drop 0) v len e ∧ len = 7 ∧
    ∀ fb, ∃ r, atof .double fb 0 (minusZeroExp.text ++ [0]) 0 = .ok r ∧ r.value = v ∧ r.strEnd = 5 := by
  obtain ⟨v, len, e, h⟩ := strtod_exists .double cNum 0 ((minusZeroExp.text ++ [0]).drop 0)
  have key := fun fb => C82_zero_exponent .double cNum rfl fb 0 (minusZeroExp.text ++ [0]) 0 minusZeroExp
    (numeralAt_cstr ⟨by decide, by intro e he; cases he; decide⟩ (by decide)
      (by intro e he; cases he; exact ⟨by decide, readable_of_lt (by decide)⟩)) (by decide) _ rfl v len e h
  have hl := (key (fun _ _ e => ⟨0, 0, e⟩)).1
  refine ⟨v, len, e, h, hl, fun fb => ?_⟩
  obtain ⟨-, r, r1, r2, r3, -⟩ := key fb
  refine ⟨r, r1, r2, ?_⟩
  rw [hl] at r3
  have a : minusZeroExp.text.length = 7 := by decide
  have b : ∀ y, minusZeroExp.exp = some y → y.text.length = 2 := by intro y hy; cases hy; decide
  have := b _ rfl
  omega

/-- **C82, hexadecimal numbers.** Where `strtod` reads a hexadecimal number, `atof` reads the zero it starts with: it returns a
zero of the same sign as the text and stops in front of the `x`. -/
theorem C82_hexadecimal (T : FloatType) (L : NumLocale) (hL : L.point = '.'.toNat) (fb : Fallback) (errno : Nat)
    (mem : List Nat) (str : Nat) (t : List Nat) (ht : Hexadecimal '.'.toNat t) (hsub : IsSubject '.'.toNat t (mem.drop str))
    (v len errno' : Nat) (hs : Strtod T L errno (mem.drop str) v len errno') :
    len = t.length ∧ ∃ (s : Option Bool) (x : Nat) (u : List Nat), t = signText s ++ '0'.toNat :: x :: u ∧
      (x = 'x'.toNat ∨ x = 'X'.toNat) ∧
      atof T fb errno mem str = .ok ⟨if s = some true then neg T 0 else 0, .success, str + (signText s).length + 1, errno, false⟩ := by
  obtain ⟨R, hR⟩ := hsub.here
  have hlen : len = t.length := by
    have hsub' := hsub
    rw [← hR] at hs hsub'
    rw [← hL] at hsub'
    obtain ⟨s, x, i, f, e, hx, -⟩ := ht
    rcases s with _ | _ | _
    · exact strtod_len (c := '0'.toNat) (fun h => (L.space_ok _ h).1 (by decide)) hsub' hs
    · exact strtod_len (c := '+'.toNat) (fun h => (L.space_ok _ h).2.1 rfl) hsub' hs
    · exact strtod_len (c := '-'.toNat) (fun h => (L.space_ok _ h).2.2.1 rfl) hsub' hs
  refine ⟨hlen, ?_⟩
  obtain ⟨s, x, i, f, e, hx, -⟩ := ht
  refine ⟨s, x, i ++ f ++ e, rfl, hx, ?_⟩
  let n : Numeral := ⟨s, [0], none, none⟩
  have hnt : n.text = signText s ++ ['0'.toNat] := by
    show signText s ++ _ ++ [] = _
    rw [List.append_nil]; rfl
  have hxd : ¬ IsDig x ∧ x ≠ '.'.toNat ∧ x ≠ 'e'.toNat ∧ x ≠ 'E'.toNat := by
    rcases hx with rfl | rfl <;> (unfold IsDig; decide)
  have hat : NumeralAt mem str n := by
    refine ⟨⟨by simp [n], by intro e he; cases he⟩, ⟨x, i ++ f ++ e ++ R, ?_, hxd.1, fun _ => ⟨hxd.2.2.1, hxd.2.2.2, fun h => absurd h hxd.2.1⟩, fun _ => hxd.2.1⟩,
      ?_, by rintro e ⟨⟩, by rintro e ⟨⟩⟩
    · rw [← hR, hnt]; simp
    · rcases s with _ | _ | _ <;> decide
  have := C34_zero T fb errno mem str n hat (by simp [n, Numeral.fracDigits])
  rw [this]
  have e1 : n.text.length - n.expText.length = (signText s).length + 1 := by
    rw [hnt]
    show _ - ([] : List Nat).length = _
    simp
  rw [e1, Nat.add_assoc]

/-- The hypotheses can be met: "-0x1.8p3", "C" locale. -/
example : ∃ v len e, Strtod .double cNum 0 ((chars "-0x1.8p3" ++ [0]).drop 0) v len e ∧ len = 8 ∧
    ∀ fb, atof .double fb 0 (chars "-0x1.8p3" ++ [0]) 0 = .ok ⟨2 ^ 63, .success, 2, 0, false⟩ := by
  obtain ⟨v, len, e, h⟩ := strtod_exists .double cNum 0 ((chars "-0x1.8p3" ++ [0]).drop 0)
  have hx : Hexadecimal '.'.toNat (chars "-0x1.8p3") :=
    .mk (some true) 'x'.toNat (chars "1") (chars ".8") (chars "p3") (Or.inl rfl) (by unfold HexDigit; decide)
      (Or.inr ⟨chars "8", rfl, by unfold HexDigit; decide⟩) (Or.inl (by decide))
      (Or.inr ⟨'p'.toNat, none, [3], Or.inl rfl, by decide, rfl⟩)
  have hsub : IsSubject '.'.toNat (chars "-0x1.8p3") ((chars "-0x1.8p3" ++ [0]).drop 0) :=
    ⟨.hexadecimal _ hx, ⟨[0], rfl⟩, fun t' ht' hp =>
      (prefix_before (a := chars "-0x1.8p3") (b := []) hp (fun h => subject_nonzero (by decide) ht' 0 h rfl)).length_le⟩
  have key := fun fb => C82_hexadecimal .double cNum rfl fb 0 (chars "-0x1.8p3" ++ [0]) 0 _ hx hsub v len e h
  refine ⟨v, len, e, h, (key (fun _ _ e => ⟨0, 0, e⟩)).1, fun fb => ?_⟩
  obtain ⟨-, s, x, u, h1, -, h3⟩ := key fb
  have hs : s = some true := by
    rcases s with _ | _ | _
    · exact absurd (congrArg (fun l => l.head?) h1) (by simp [signText, chars])
    · exact absurd (congrArg (fun l => l.head?) h1) (by simp [signText, chars])
    · rfl
  subst hs
  rw [h3]
  rfl

end Floaxie
