import Verif.Spec.Strtod
import Verif.Spec.Input
import Verif.Proof.NumeralText
import Verif.Proof.Total

/-! # The subject sequence `strtod` finds in a text that starts with a number -/

namespace Floaxie

open Spec FloatType

theorem localText_dot (n : Numeral) : n.localText '.'.toNat = n.text := rfl

/-- A number at the start of the text is preceded by no sign of its own. -/
theorem mant_head {n : Numeral} {R : List Nat} (h : n.mantText ≠ []) : ∀ c ∈ (n.mantText ++ R).head?, c ≠ '+'.toNat ∧ c ≠ '-'.toNat := by
  obtain ⟨s, i, f, e⟩ := n
  intro c hc
  cases i with
  | cons d i =>
    simp [Numeral.mantText] at hc
    subst hc; exact digitChar_ne_sign d
  | nil =>
    cases f with
    | none => simp [Numeral.mantText] at h
    | some f => simp [Numeral.mantText] at hc; subst hc; decide

theorem mant_ne {n : Numeral} (h : digitsVal (allDigits n) ≠ 0) : n.mantText ≠ [] := by
  obtain ⟨s, i, f, e⟩ := n
  cases i with
  | cons d i => simp [Numeral.mantText]
  | nil =>
    cases f with
    | none => exact absurd rfl h
    | some f => simp [Numeral.mantText]

/-- Nothing hexadecimal starts a text that starts with a number other than zero. -/
theorem not_hex {p : Nat} {n : Numeral} {R t : List Nat} (h0 : digitsVal (allDigits n) ≠ 0) (ht : Hexadecimal p t)
    (hp : t <+: scanText n ++ R) : False := by
  obtain ⟨R', hR⟩ := hp
  obtain ⟨s, x, i, f, e, hx, -⟩ := ht
  unfold scanText at hR
  rw [List.append_assoc (signText s), List.append_assoc (signText n.sign)] at hR
  obtain ⟨-, h2⟩ := sign_split _ _ _ _ (by
    intro c hc
    simp at hc
    subst hc; decide) (mant_head (mant_ne h0)) hR
  obtain ⟨sg, I, F, E⟩ := n
  have hxd : ¬ IsDig x := by rcases hx with rfl | rfl <;> (unfold IsDig; decide)
  rcases I with _ | ⟨d, _ | ⟨d', I⟩⟩
  · rcases F with _ | F
    · exact h0 rfl
    · simp [Numeral.mantText] at h2
  · simp only [Numeral.mantText, List.map_cons, List.map_nil, List.cons_append, List.nil_append, List.cons.injEq] at h2
    obtain ⟨h3, h4⟩ := h2
    have hd : d = 0 := digitChar_inj (h3.symm.trans (by decide))
    rcases F with _ | F
    · subst hd; exact h0 rfl
    · simp only [List.cons_append, List.cons.injEq] at h4
      rcases hx with rfl | rfl <;> exact absurd h4.1 (by decide)
  · simp only [Numeral.mantText, List.map_cons, List.cons_append, List.cons.injEq] at h2
    exact hxd (h2.2.1 ▸ isDig_digitChar d')

/-- No word starts a text that starts with a number. -/
theorem not_word {n : Numeral} {R w : List Nat} {s : Option Bool} {b : Bool} (h0 : n.mantText ≠ []) (hw : Word b w)
    (hp : signText s ++ w <+: scanText n ++ R) : False := by
  obtain ⟨R', hR⟩ := hp
  have hh : ∃ c r, w = c :: r ∧ (c = 'n'.toNat ∨ c = 'N'.toNat ∨ c = 'i'.toNat ∨ c = 'I'.toNat) := by
    have low : ∀ c, lower c = 'n'.toNat ∨ lower c = 'i'.toNat → c = 'n'.toNat ∨ c = 'N'.toNat ∨ c = 'i'.toNat ∨ c = 'I'.toNat := by
      intro c hc
      unfold lower at hc
      simp only [Char.reduceToNat] at hc ⊢
      split_ifs at hc <;> omega
    have key : ∀ (v : List Nat), (v.map lower).head? = some 'n'.toNat ∨ (v.map lower).head? = some 'i'.toNat →
        ∃ c r, v = c :: r ∧ (c = 'n'.toNat ∨ c = 'N'.toNat ∨ c = 'i'.toNat ∨ c = 'I'.toNat) := by
      rintro (_ | ⟨c, r⟩) hv
      · simp at hv
      · exact ⟨c, r, rfl, low c (by simpa using hv)⟩
    cases hw with
    | nan t h => exact key _ (by rw [show w.map lower = chars "nan" from h]; decide)
    | nanSeq t u h _ =>
      obtain ⟨c, r, rfl, hc⟩ := key t (by rw [show t.map lower = chars "nan" from h]; decide)
      exact ⟨c, _, rfl, hc⟩
    | inf t h => exact key _ (by rw [show w.map lower = chars "inf" from h]; decide)
    | infinity t h => exact key _ (by rw [show w.map lower = chars "infinity" from h]; decide)
  obtain ⟨c, r, rfl, hc⟩ := hh
  unfold scanText at hR
  rw [List.append_assoc (signText s), List.append_assoc (signText n.sign)] at hR
  obtain ⟨-, h2⟩ := sign_split _ _ _ _ (by
    intro c' hc'
    simp at hc'
    subst hc'
    rcases hc with rfl | rfl | rfl | rfl <;> decide) (mant_head h0) hR
  obtain ⟨sg, I, F, E⟩ := n
  have hd : ¬ IsDig c ∧ c ≠ '.'.toNat := by rcases hc with rfl | rfl | rfl | rfl <;> (unfold IsDig; decide)
  rcases I with _ | ⟨d, I⟩
  · rcases F with _ | F
    · exact h0 rfl
    · simp only [Numeral.mantText, List.map_nil, List.nil_append, List.cons_append, List.cons.injEq] at h2
      exact hd.2 h2.1
  · simp only [Numeral.mantText, List.map_cons, List.cons_append, List.cons.injEq] at h2
    exact hd.1 (h2.1 ▸ isDig_digitChar d)

theorem scanText_no_e (n : Numeral) : ∀ c ∈ scanText n, c ≠ 'e'.toNat ∧ c ≠ 'E'.toNat := by
  obtain ⟨s, I, F, E⟩ := n
  intro c hc
  have hd : ∀ d : Fin 10, digitChar d ≠ 'e'.toNat ∧ digitChar d ≠ 'E'.toNat := by decide
  unfold scanText Numeral.mantText at hc
  rcases List.mem_append.mp hc with h | h
  · rcases s with _ | _ | _ <;> simp [signText] at h <;> subst h <;> decide
  · rcases List.mem_append.mp h with h | h
    · obtain ⟨d, -, rfl⟩ := List.mem_map.mp h
      exact hd d
    · rcases F with _ | F
      · simp at h
      · rcases List.mem_cons.mp h with rfl | h
        · decide
        · obtain ⟨d, -, rfl⟩ := List.mem_map.mp h
          exact hd d

/-- A prefix without a given character stops before it. -/
theorem prefix_before {l a b : List Nat} {e : Nat} (h : l <+: a ++ e :: b) (he : e ∉ l) : l <+: a := by
  rcases List.prefix_or_prefix_of_prefix h (List.prefix_append a (e :: b)) with h' | ⟨u, rfl⟩
  · exact h'
  · rw [List.prefix_append_right_inj] at h
    rcases u with _ | ⟨c, u⟩
    · simp
    · rw [List.cons_prefix_cons] at h
      exact absurd (by rw [h.1]; simp) he

/-- A longer numeral is not zero either. -/
theorem longer_ne_zero {n n' : Numeral} (h0 : digitsVal (allDigits n) ≠ 0) (hp : scanText n <+: n'.text) :
    digitsVal (allDigits n') ≠ 0 := by
  have h1 : scanText n <+: scanText n' := by
    rcases he : n'.expText with _ | ⟨c, u⟩
    · have : n'.text = scanText n' := by unfold Numeral.text scanText; rw [he, List.append_nil]
      rwa [this] at hp
    · have hc := expText_head n' c (by rw [he]; simp)
      refine prefix_before (e := c) (b := u) ?_ fun hm => ?_
      · have : n'.text = scanText n' ++ c :: u := by unfold Numeral.text scanText; rw [he]
        rwa [this] at hp
      · obtain ⟨h1, h2⟩ := scanText_no_e n c hm
        rcases hc with rfl | rfl
        · exact h1 rfl
        · exact h2 rfl
  have : ∃ d ∈ allDigits n, d ≠ 0 := by
    by_contra h
    push Not at h
    exact h0 (digitsVal_all_zero h)
  obtain ⟨d, hd, hd0⟩ := this
  have hm : digitChar d ∈ scanText n := by
    unfold allDigits Numeral.fracDigits at hd
    unfold scanText Numeral.mantText
    rcases List.mem_append.mp hd with h | h
    · simp only [List.mem_append, List.mem_map]; exact Or.inr (Or.inl ⟨d, h, rfl⟩)
    · rcases hF : n.frac with _ | F
      · rw [hF] at h; simp at h
      · rw [hF] at h
        simp only [List.mem_append, List.mem_map, List.mem_cons]
        exact Or.inr (Or.inr (Or.inr ⟨d, h, rfl⟩))
  have hm' := h1.subset hm
  have hin : d ∈ allDigits n' := by
    unfold allDigits Numeral.fracDigits
    unfold scanText Numeral.mantText at hm'
    have hds := digitChar_ne_sign d
    have hdot : digitChar d ≠ '.'.toNat := (by decide : ∀ d : Fin 10, digitChar d ≠ '.'.toNat) d
    rcases List.mem_append.mp hm' with h | h
    · rcases hs : n'.sign with _ | _ | _ <;> rw [hs] at h <;> simp [signText] at h
      · exact absurd h hds.1
      · exact absurd h hds.2
    · rcases List.mem_append.mp h with h | h
      · obtain ⟨d', h', e⟩ := List.mem_map.mp h
        rw [← digitChar_inj e]; exact List.mem_append_left _ h'
      · rcases hF : n'.frac with _ | F
        · rw [hF] at h; simp at h
        · rw [hF] at h
          rcases List.mem_cons.mp h with h | h
          · exact absurd h hdot
          · obtain ⟨d', h', e⟩ := List.mem_map.mp h
            rw [← digitChar_inj e]
            exact List.mem_append_right _ h'
  intro hz
  exact hd0 (digitsVal_eq_zero hz d hin)

theorem absValue_ne_zero_iff {n : Numeral} : n.value ≠ 0 ↔ digitsVal (allDigits n) ≠ 0 := by
  unfold Numeral.value Numeral.absValue allDigits
  have : (10 : ℚ) ^ (n.expValue - n.fracDigits.length) ≠ 0 := zpow_ne_zero _ (by norm_num)
  split_ifs <;> simp [this]

/-- A numeral followed by a character that cannot extend it is not the start of a longer one. -/
theorem not_extended {n n' : Numeral} {c : Nat} {u : List Nat} (hv : n.Valid) (he : EndsAt n c) (h : n.text ++ c :: u = n'.text) : False := by
  have hh : ∀ n : Numeral, n.mantText ≠ [] → ∀ v, ∀ c ∈ (n.int.map digitChar ++ (afterInt n ++ v)).head?,
      c ≠ '+'.toNat ∧ c ≠ '-'.toNat := by
    intro n hn v c hc
    cases hi : n.int with
    | nil =>
      rw [hi] at hc
      rcases hF : n.frac with _ | F
      · exact absurd (by unfold Numeral.mantText; rw [hi, hF]; rfl) hn
      · simp [afterInt, hF] at hc
        subst hc; decide
    | cons d ds =>
      rw [hi] at hc
      simp at hc; subst hc; exact digitChar_ne_sign d
  have hm : n.mantText ≠ [] := by
    obtain ⟨s, i, f, e⟩ := n
    have h1 := hv.1
    rcases i with _ | ⟨d, i⟩
    · rcases f with _ | f
      · exact absurd rfl h1
      · simp [Numeral.mantText]
    · simp [Numeral.mantText]
  have hnd : ¬ IsDig c := he.notDigit
  have hm' : n'.mantText = [] ∨ n'.mantText ≠ [] := Classical.em _
  rw [text_eq, text_eq, List.append_assoc, List.append_assoc] at h
  have hh' : ∀ c ∈ (n'.int.map digitChar ++ afterInt n').head?, c ≠ '+'.toNat ∧ c ≠ '-'.toNat := by
    rcases hm' with h' | h'
    · intro c hc
      unfold Numeral.mantText at h'
      rw [List.append_eq_nil_iff, List.map_eq_nil_iff] at h'
      rw [h'.1] at hc
      rcases afterInt_head n' c (by simpa using hc) with rfl | rfl | rfl <;> decide
    · have := hh n' h' []
      simpa using this
  obtain ⟨-, h2⟩ := sign_split _ _ _ _ (hh n hm (c :: u)) hh' h
  have ha : ∀ n : Numeral, ∀ c ∈ (afterInt n).head?, ¬ IsDig c := by
    intro n c hc
    rcases afterInt_head n c hc with rfl | h
    · unfold IsDig; decide
    · exact e_not_dig c h
  have hx : ∀ n : Numeral, ∀ c ∈ n.expText.head?, ¬ IsDig c := fun n c hc =>
    e_not_dig c (expText_head n c hc)
  have ha' : ∀ v : List Nat, (∀ c ∈ v.head?, ¬ IsDig c) → ∀ c' ∈ (v ++ c :: u).head?, ¬ IsDig c' := by
    intro v hv c' hc'
    rcases v with _ | ⟨a, v⟩
    · simp at hc'; subst hc'; exact hnd
    · exact hv c' (by simpa using hc')
  obtain ⟨-, h3⟩ := digits_split _ _ _ _ (ha' _ (ha n)) (ha n') h2
  -- what remains is after the digits before the point
  have h4 : n.expText ++ c :: u = n'.expText ∨ (n.frac = none ∧ ∃ F, n.expText ++ c :: u = '.'.toNat :: F ++ n'.expText) := by
    unfold afterInt at h3
    rcases hF : n.frac with _ | F <;> rcases hF' : n'.frac with _ | F' <;> rw [hF, hF'] at h3 <;> dsimp only at h3
    · exact Or.inl (by simpa using h3)
    · exact Or.inr ⟨rfl, _, by simpa using h3⟩
    · exfalso
      simp only [List.cons_append, List.nil_append] at h3
      have := expText_head n' '.'.toNat (by rw [← h3]; simp)
      revert this; decide
    · simp only [List.cons_append, List.cons.injEq, List.append_assoc] at h3
      exact Or.inl (digits_split _ _ _ _ (ha' _ (hx n)) (hx n') h3.2).2
  rcases hE : n.exp with _ | e
  · have hnx : n.expText = [] := by unfold Numeral.expText; rw [hE]
    rw [hnx] at h4
    obtain ⟨g1, g2, g3⟩ := he.noExp hE
    rcases h4 with h4 | ⟨hF, F, h4⟩
    · rcases expText_head n' c (by rw [← h4]; simp) with h | h
      · exact g1 h
      · exact g2 h
    · simp only [List.nil_append, List.cons_append, List.cons.injEq] at h4
      exact g3 h4.1 hF
  · have hnx : n.expText = e.text := by unfold Numeral.expText; rw [hE]
    have hc := he.noDot (by rw [hE]; simp)
    rw [hnx] at h4
    rcases h4 with h4 | ⟨-, F, h4⟩
    · rcases hE' : n'.exp with _ | e'
      · have : n'.expText = [] := by unfold Numeral.expText; rw [hE']
        rw [this] at h4; simp at h4
      · have : n'.expText = e'.text := by unfold Numeral.expText; rw [hE']
        rw [this] at h4
        unfold ExpPart.text at h4
        simp only [List.cons_append, List.cons.injEq, List.append_assoc] at h4
        have hne := hv.2 e hE
        obtain ⟨-, h5⟩ := sign_split _ _ _ _ (by
          intro c' hc'
          rcases hd : e.digits with _ | ⟨d, ds⟩
          · exact absurd hd hne
          · rw [hd] at hc'
            simp at hc'; subst hc'; exact digitChar_ne_sign d) (fun c hc => head_digits hc) h4.2
        have := digits_split e.digits e'.digits (c :: u) [] (by simpa using hnd) (by simp) (by simpa using h5)
        simp at this
    · unfold ExpPart.text at h4
      simp only [List.cons_append, List.cons.injEq] at h4
      have := h4.1
      split_ifs at this <;> exact absurd this (by decide)

/-- Decimal point `.`: what the subject sequence of a text starting with a number other than zero is. -/
theorem subject_decimal {n : Numeral} {R t : List Nat} (h0 : digitsVal (allDigits n) ≠ 0) (ht : Subject '.'.toNat t)
    (hp : t <+: scanText n ++ R) : ∃ n' : Numeral, n'.Valid ∧ t = n'.text := by
  cases ht with
  | decimal n' h => exact ⟨n', h, rfl⟩
  | hexadecimal t h => exact (not_hex h0 h hp).elim
  | word s b w h => exact (not_word (mant_ne h0) h hp).elim

theorem isSubject_unique {p : Nat} {t t' rest : List Nat} (h : IsSubject p t rest) (h' : IsSubject p t' rest) : t = t' := by
  have h1 := h.longest t' h'.form h'.here
  have h2 := h'.longest t h.form h.here
  rcases List.prefix_or_prefix_of_prefix h.here h'.here with h3 | h3
  · exact h3.eq_of_length (by omega)
  · exact (h3.eq_of_length (by omega)).symm

/-- The subject sequence of a numeral in memory is its text. -/
theorem isSubject_numeral {n : Numeral} {c : Nat} {R : List Nat} (hv : n.Valid) (he : EndsAt n c) (h0 : n.value ≠ 0) :
    IsSubject '.'.toNat n.text (n.text ++ c :: R) := by
  refine ⟨.decimal n hv, List.prefix_append _ _, fun t' ht' hp => ?_⟩
  have h0' := absValue_ne_zero_iff.mp h0
  have ht : n.text = scanText n ++ n.expText := rfl
  obtain ⟨n', hv', rfl⟩ := subject_decimal (n := n) (R := n.expText ++ c :: R) h0' ht' (by rwa [ht, List.append_assoc] at hp)
  by_contra hl
  push Not at hl
  rcases List.prefix_or_prefix_of_prefix hp (List.prefix_append n.text (c :: R)) with h | ⟨w, h⟩
  · exact absurd h.length_le (by omega)
  · rcases w with _ | ⟨c', w⟩
    · rw [List.append_nil] at h
      rw [h] at hl; omega
    · rw [← h, List.prefix_append_right_inj, List.cons_prefix_cons] at hp
      rw [hp.1] at h
      exact not_extended hv he h

/-- `strtod` (decimal point `.`) on a text starting with a number other than zero. -/
theorem strtod_number {T : FloatType} {L : NumLocale} (hL : L.point = '.'.toNat) {errno v len errno' : Nat} {n : Numeral} {R : List Nat}
    (h0 : digitsVal (allDigits n) ≠ 0) (h : Strtod T L errno (scanText n ++ R) v len errno') :
    ∃ n' : Numeral, n'.Valid ∧ IsSubject '.'.toNat n'.text (scanText n ++ R) ∧ n'.value ≠ 0 ∧ len = n'.text.length ∧
      ((RoundsTo T n'.value v ∧ (errno' = errno ∨ (errno' = erange ∧ |n'.value| < 2 ^ (T.minExp - 1)))) ∨
       (overflowThreshold T ≤ |n'.value| ∧ v = (if n'.isNeg then 2 ^ (T.W - 1) else 0) + expMax T * 2 ^ (T.p - 1) ∧ errno' = erange)) := by
  obtain ⟨ws, rest, h1, h2, -, h4⟩ := h
  have hne := mant_ne h0
  have hws : ws = [] := by
    rcases ws with _ | ⟨c, ws⟩
    · rfl
    · exfalso
      obtain ⟨g1, g2, g3, g4, -, -⟩ := L.space_ok c (h2 c (by simp))
      obtain ⟨s, I, F, E⟩ := n
      unfold scanText at h1
      rcases s with _ | _ | _
      · simp only [signText, List.nil_append, List.cons_append, Numeral.mantText] at h1
        rcases I with _ | ⟨d, I⟩
        · rcases F with _ | F
          · exact h0 rfl
          · simp at h1; exact g4 h1.1.symm
        · simp at h1
          exact g1 (h1.1 ▸ isDig_digitChar d)
      · simp [signText] at h1
        exact g2 h1.1.symm
      · simp [signText] at h1
        exact g3 h1.1.symm
  subst hws
  rw [List.nil_append] at h1
  subst h1
  have ne0 : ∀ n' : Numeral, IsSubject L.point (n'.localText L.point) (scanText n ++ R) → n'.value ≠ 0 := by
    intro n' hs
    rw [hL, localText_dot] at hs
    have hsub : Subject '.'.toNat (Numeral.text { n with exp := none }) := by
      refine .decimal _ ⟨?_, by simp⟩
      intro hh
      apply h0
      show digitsVal (n.int ++ n.fracDigits) = 0
      rw [show n.int ++ n.fracDigits = [] from hh]; rfl
    have htx : Numeral.text { n with exp := none } = scanText n := by
      unfold Numeral.text scanText Numeral.expText; simp; rfl
    rw [htx] at hsub
    have hlen := hs.longest _ hsub (List.prefix_append _ _)
    have hpre : scanText n <+: n'.text := by
      rcases List.prefix_or_prefix_of_prefix (List.prefix_append (scanText n) R) hs.here with h | h
      · exact h
      · rw [h.eq_of_length (le_antisymm h.length_le hlen)]
    exact absValue_ne_zero_iff.mpr (longer_ne_zero h0 hpre)
  have conv : ∀ n' : Numeral, IsSubject L.point (n'.localText L.point) (scanText n ++ R) →
      IsSubject '.'.toNat n'.text (scanText n ++ R) := fun n' hs => by rw [hL, localText_dot] at hs; exact hs
  have clen : ∀ n' : Numeral, (n'.localText L.point).length = n'.text.length := fun n' => by rw [hL, localText_dot]
  cases h4 with
  | nothing _ h _ =>
    exfalso
    refine h (scanText n) ?_ (List.prefix_append _ _)
    have htx : Numeral.localText L.point { n with exp := none } = scanText n := by
      rw [hL, localText_dot]
      unfold Numeral.text scanText Numeral.expText; simp; rfl
    rw [← htx]
    refine .decimal _ ⟨?_, by simp⟩
    intro hh
    apply h0
    show digitsVal (n.int ++ n.fracDigits) = 0
    rw [show n.int ++ n.fracDigits = [] from hh]; rfl
  | number n' v e' hv hs h5 h6 h7 => exact ⟨n', hv, conv _ hs, h5, by rw [← clen]; simp, Or.inl ⟨h6, h7⟩⟩
  | zero n' hv hs h5 => exact absurd h5 (ne0 n' hs)
  | overflow n' hv hs h5 => exact ⟨n', hv, conv _ hs, ne0 n' hs, by rw [← clen]; simp, Or.inr ⟨h5, rfl, rfl⟩⟩
  | hexadecimal t v e' h5 hs => exact (not_hex h0 h5 hs.here).elim
  | word s b w v h5 hs _ => exact (not_word hne h5 hs.here).elim

end Floaxie
