import Verif.Prop.DefaultFallback
import Verif.Prop.Monotone
import Verif.Prop.Rest
import Verif.Prop.Special
import Verif.Prop.Spelling

/-!
# `atof` in place of the C library's function (C82)
-/

namespace Floaxie

open Spec FloatType

/-- **C82, numbers.** Decimal point `.`, a numeral as in C20 that does not round up to a power
of two (C21): `atof` with the C library's function as fallback returns the bit pattern and the end pointer that
a call of any function conforming to ISO C returns, and leaves the same `errno` if the number is in the normal range. -/
theorem C82_numbers (T : FloatType) (L L' : NumLocale) (hL : L.point = '.'.toNat) (hL' : L'.point = '.'.toNat)
    (fb : Fallback) (hc : Conforming T L fb)
    (errno : Nat) (mem : List Nat) (str : Nat) (hn : Nul mem str)
    (n : Numeral) (h : NumeralAt mem str n) (m : Nat) (k : Int) (hm : m < 10 ^ T.digits10)
    (hmk : n.absValue = m * 10 ^ k) (hk : T = .float → -50 ≤ k)
    (hx1 : 2 ^ emin T ≤ n.absValue) (hx2 : n.absValue < overflowThreshold T)
    (hp : ¬ RoundsUpToPow2 T n.value) (v len errno' : Nat) (hs : Strtod T L' errno (mem.drop str) v len errno') :
    ∃ r, atof T fb errno mem str = .ok r ∧ r.value = v ∧ r.strEnd = str + len ∧
      (2 ^ (T.minExp - 1) ≤ n.absValue → r.errno = errno') := by
  obtain ⟨r, b, r1, r2, r3, r4, -⟩ := C71_short T L hL fb hc errno mem str hn n h m k hm hmk hk hx1 hx2
  have habs : |n.value| = n.absValue := by
    have : 0 ≤ n.absValue := by unfold Numeral.absValue; positivity
    unfold Numeral.value; split_ifs <;> simp [abs_of_nonneg this]
  have hv0 : n.value ≠ 0 := by
    intro h0
    rw [← habs, h0, abs_zero] at hx1
    exact absurd hx1 (not_le.mpr (zpow_pos (by norm_num) _))
  have key : ∀ {L : NumLocale} {v len errno' : Nat}, L.point = '.'.toNat → Strtod T L errno (mem.drop str) v len errno' →
      len = n.text.length ∧ RoundsTo T n.value v ∧ (2 ^ (T.minExp - 1) ≤ n.absValue → errno' = errno) := by
    intro L v len errno' hL hs
    obtain ⟨c, R, hd, he⟩ := h.text
    rw [hd, show n.text = scanText n ++ n.expText from rfl, List.append_assoc] at hs
    obtain ⟨n', -, e2, -, e4, e5⟩ := strtod_number hL (absValue_ne_zero_iff.mp hv0) hs
    rw [← List.append_assoc, ← show n.text = scanText n ++ n.expText from rfl] at e2
    have := numeral_text_inj _ _ (isSubject_unique e2 (isSubject_numeral h.valid he hv0))
    subst this
    refine ⟨e4, ?_⟩
    rcases e5 with ⟨e5, e6⟩ | e5
    · refine ⟨e5, fun hx => ?_⟩
      rcases e6 with e6 | e6
      · exact e6
      · exact absurd e6.2 (not_lt.mpr (by rw [habs]; exact hx))
    · exact absurd e5.1 (not_le.mpr (by rw [habs]; exact hx2))
  obtain ⟨k1, k2, k3⟩ := key hL' hs
  refine ⟨r, r1, ?_, by rw [r4, k1], fun hx => ?_⟩
  · rcases r3 with r3 | ⟨-, -, j, j1, j2, j3, -⟩
    · rw [r3]; exact roundsTo_unique r2 k2
    · exact absurd ⟨b, j, r2, j1, j2, j3⟩ hp
  · rw [k3 hx]
    cases hf : r.fellBack
    · exact (C38_own_result T fb errno mem str r r1 hf).1
    · obtain ⟨-, hr⟩ := asked_result r1 hf
      obtain ⟨len', c1, c2⟩ := hc mem str errno hn
      rw [hr]
      exact (key hL c2).2.2 hx

/-- The hypotheses can be met: "-0.1" and any conforming functions. -/
example : ∃ fb v len e, Conforming .float cNum fb ∧ Strtod .float cNum 0 ((minusTenth.text ++ [0]).drop 0) v len e ∧
    ∃ r, atof .float fb 0 (minusTenth.text ++ [0]) 0 = .ok r ∧ r.value = v ∧ r.strEnd = 0 + len := by
  obtain ⟨fb, hc⟩ := conforming_exists .float cNum
  obtain ⟨v, len, e, h⟩ := strtod_exists .float cNum 0 ((minusTenth.text ++ [0]).drop 0)
  obtain ⟨h1, -, h3, h4, h5, -⟩ := minusTenth_readWell fb
  obtain ⟨r, r1, r2, r3, -⟩ := C82_numbers .float cNum cNum rfl rfl fb hc 0 _ 0 (nul_le.mpr (Nat.zero_le _)) minusTenth minusTenth_at 1 (-1)
    (by decide) minusTenth_abs (by decide) h3 h4 h5 v len e h
  exact ⟨fb, v, len, e, hc, h, r, r1, r2, r3⟩

/-- An infinity is known by its sign. -/
theorem isInf_unique {T : FloatType} {u v : Nat} (hu : IsInf T u) (hv : IsInf T v) (hs : signBit T u = signBit T v) : u = v := by
  obtain ⟨a1, a2, a3⟩ := hu
  obtain ⟨b1, b2, b3⟩ := hv
  unfold expField at a2 b2
  unfold fracField at a3 b3
  unfold signBit at hs
  cases T <;> simp only [FloatType.p, FloatType.W] at * <;> omega

theorem word_head {b : Bool} {w : List Nat} (h : Word b w) : ∃ c R, w = c :: R ∧ (c = 'n'.toNat ∨ c = 'N'.toNat ∨ c = 'i'.toNat ∨ c = 'I'.toNat) := by
  obtain ⟨c, R, h1, h2⟩ := word_start h List.prefix_rfl
  refine ⟨c, R, h1, ?_⟩
  cases b <;> simp only [if_true, if_false, Bool.false_eq_true] at h2 <;> tauto

theorem word_letter {c : Nat} (hc : c = 'n'.toNat ∨ c = 'N'.toNat ∨ c = 'i'.toNat ∨ c = 'I'.toNat) :
    ¬ IsDig c ∧ c ≠ '.'.toNat ∧ c ≠ '+'.toNat ∧ c ≠ '-'.toNat := by
  rcases hc with rfl | rfl | rfl | rfl <;> (unfold IsDig; decide)

/-- The subject sequence of a word in memory is the word with its sign. -/
theorem isSubject_word {s : Option Bool} {b : Bool} {w text : List Nat} (hw : LongestWord b w text) :
    IsSubject '.'.toNat (signText s ++ w) (signText s ++ text) := by
  obtain ⟨c, R, rfl, hc⟩ := word_head hw.word
  obtain ⟨q, hq⟩ := hw.here
  have hl := word_letter hc
  have ht : ∀ c' ∈ text.head?, c' ≠ '+'.toNat ∧ c' ≠ '-'.toNat := by
    intro c' hc'
    rw [← hq] at hc'
    simp at hc'
    subst hc'
    exact hl.2.2
  refine ⟨.word s b _ hw.word, by rw [List.prefix_append_right_inj]; exact hw.here, fun t' ht' hp => ?_⟩
  cases ht' with
  | decimal n hv =>
    exfalso
    rw [localText_dot, show n.text = scanText n ++ n.expText from rfl] at hp
    have hm : n.mantText ≠ [] := by
      obtain ⟨s, i, f, e⟩ := n
      have h1 := hv.1
      rcases i with _ | ⟨d, i⟩
      · rcases f with _ | f
        · exact absurd rfl h1
        · simp [Numeral.mantText]
      · simp [Numeral.mantText]
    obtain ⟨R', hR⟩ := hp
    refine not_word (n := n) (R := n.expText ++ R') hm hw.word ⟨q, ?_⟩ (s := s)
    rw [List.append_assoc, hq, ← List.append_assoc (scanText n)]
    exact hR.symm
  | hexadecimal t h =>
    exfalso
    obtain ⟨R', hR⟩ := hp
    obtain ⟨s', x, i, f, e, hx, -⟩ := h
    rw [List.append_assoc] at hR
    obtain ⟨-, h2⟩ := sign_split _ _ _ _ (by intro c hc; simp at hc; subst hc; decide) ht hR
    rw [← hq] at h2
    simp only [List.cons_append, List.cons.injEq] at h2
    exact hl.1 (by rw [← h2.1]; unfold IsDig; decide)
  | word s' b' w' h =>
    obtain ⟨c', R', rfl, hc'⟩ := word_head h
    obtain ⟨R'', hR⟩ := hp
    rw [List.append_assoc] at hR
    obtain ⟨h1, h2⟩ := sign_split _ _ _ _ (by intro c hc; simp at hc; subst hc; exact (word_letter hc').2.2) ht hR
    have := hw.longest _ _ h ⟨R'', h2⟩
    rw [h1, List.length_append, List.length_append]
    omega

/-- White space is skipped; if the text starts with something else, nothing is. -/
theorem strtod_call {T : FloatType} {L : NumLocale} {errno : Nat} {c : Nat} {R : List Nat} {v len errno' : Nat} (hc : ¬ L.space c)
    (h : Strtod T L errno (c :: R) v len errno') : StrtodCall T L errno [] (c :: R) v len errno' := by
  obtain ⟨ws, rest, h1, h2, -, h4⟩ := h
  rcases ws with _ | ⟨c', ws⟩
  · rw [h1]; exact h4
  · rw [List.cons_append, List.cons.injEq] at h1
    exact absurd (h2 c' (by simp)) (h1.1 ▸ hc)

/-- **C82, words.** On a text starting with a word for NaN or infinity, signed or not, `atof` stops where `strtod` stops and
leaves the same `errno`; it returns the same infinity, or a NaN where `strtod` returns a NaN.  (Provided letters are not white space.) -/
theorem C82_words (T : FloatType) (L : NumLocale) (hL : L.point = '.'.toNat)
    (hs : ¬ L.space 'n'.toNat ∧ ¬ L.space 'N'.toNat ∧ ¬ L.space 'i'.toNat ∧ ¬ L.space 'I'.toNat)
    (fb : Fallback) (errno : Nat) (mem : List Nat) (str : Nat) (s : Option Bool) (isNan : Bool)
    (w text : List Nat) (hn : Nul mem str) (hm : mem.drop str = signText s ++ text) (hw : LongestWord isNan w text)
    (v len errno' : Nat) (h : Strtod T L errno (mem.drop str) v len errno') :
    ∃ r, atof T fb errno mem str = .ok r ∧ r.strEnd = str + len ∧ r.errno = errno' ∧
      (isNan = true → IsNaN T r.value ∧ IsNaN T v) ∧ (isNan = false → r.value = v) := by
  obtain ⟨u, a1, a2, a3, a4⟩ := C33_words T fb errno mem str s isNan w text hn hm hw
  have hsub := isSubject_word (s := s) hw
  have hcall : StrtodCall T L errno [] (signText s ++ text) v len errno' := by
    rw [hm] at h
    obtain ⟨c, R, rfl, hc⟩ := word_head hw.word
    obtain ⟨q, rfl⟩ := hw.here
    rcases s with _ | _ | _
    · refine strtod_call ?_ h
      rcases hc with rfl | rfl | rfl | rfl
      · exact hs.1
      · exact hs.2.1
      · exact hs.2.2.1
      · exact hs.2.2.2
    · exact strtod_call (fun h => (L.space_ok _ h).2.1 rfl) h
    · exact strtod_call (fun h => (L.space_ok _ h).2.2.1 rfl) h
  refine ⟨_, a1, ?_⟩
  have dec : ∀ n : Numeral, n.Valid → IsSubject L.point (n.localText L.point) (signText s ++ text) → False := by
    intro n hv hsn
    rw [hL, localText_dot] at hsn
    have := isSubject_unique hsub hsn
    have hm : n.mantText ≠ [] := by
      obtain ⟨s, i, f, e⟩ := n
      have h1 := hv.1
      rcases i with _ | ⟨d, i⟩
      · rcases f with _ | f
        · exact absurd rfl h1
        · simp [Numeral.mantText]
      · simp [Numeral.mantText]
    exact not_word (n := n) (R := n.expText) hm hw.word (s := s) ⟨[], by rw [List.append_nil]; exact this⟩
  cases hcall with
  | nothing _ hno _ => exact absurd hsub.here (hno _ (by rw [hL]; exact hsub.form))
  | number n v e' hv hs => exact (dec n hv hs).elim
  | zero n hv hs => exact (dec n hv hs).elim
  | overflow n hv hs => exact (dec n hv hs).elim
  | hexadecimal t v e' h5 hs =>
    exfalso
    rw [hL] at hs
    have := isSubject_unique hsub hs
    obtain ⟨s', x, i, f, e, hx, -⟩ := h5
    obtain ⟨c, R, rfl, hc⟩ := word_head hw.word
    obtain ⟨-, h2⟩ := sign_split _ _ _ _ (by intro c' h; simp at h; subst h; exact (word_letter hc).2.2) (by intro c hc; simp at hc; subst hc; decide) this
    simp only [List.cons.injEq] at h2
    exact (word_letter hc).1 (by rw [h2.1]; unfold IsDig; decide)
  | word s' b' w' v h5 hs h6 =>
    rw [hL] at hs
    have he := isSubject_unique hsub hs
    obtain ⟨c, R, hR, hc⟩ := word_head hw.word
    obtain ⟨c', R', hR', hc'⟩ := word_head h5
    obtain ⟨g1, g2⟩ := sign_split _ _ _ _ (by intro x h; rw [hR] at h; simp at h; subst h; exact (word_letter hc).2.2)
      (by intro x h; rw [hR'] at h; simp at h; subst h; exact (word_letter hc').2.2) he
    subst g1 g2
    have hb : isNan = b' := by
      obtain ⟨x, X, x1, x2⟩ := word_start hw.word List.prefix_rfl
      obtain ⟨y, Y, y1, y2⟩ := word_start h5 List.prefix_rfl
      rw [x1, List.cons.injEq] at y1
      rw [← y1.1] at y2
      cases isNan <;> cases b' <;> simp only [if_true, if_false, Bool.false_eq_true, Char.reduceToNat] at x2 y2 ⊢ <;> omega
    subst hb
    refine ⟨by simp [Nat.add_assoc], rfl, fun hN => ?_, fun hN => ?_⟩
    · rw [hN, if_pos rfl] at h6
      have := a2 hN
      exact ⟨this.1, h6⟩
    · rw [hN] at h6
      simp only [Bool.false_eq_true, if_false] at h6
      have h7 := a3 hN
      have h8 : signBit T u = signBit T v := by
        have p1 := (pat_decomp h6.1.1).2
        rw [a4]
        split_ifs with hs1
        · exact (h6.2.mpr hs1).symm
        · have : signBit T v ≠ 1 := fun h => hs1 (h6.2.mp h)
          omega
      exact isInf_unique h7 h6.1 h8

/-- The hypotheses can be met: "-Infinity", "C" locale. -/
example : ∃ v len e, Strtod .double cNum 0 ((chars "-Infinity" ++ [0]).drop 0) v len e ∧
    ∀ fb, ∃ r, atof .double fb 0 (chars "-Infinity" ++ [0]) 0 = .ok r ∧ r.value = v ∧ r.strEnd = 0 + len := by
  obtain ⟨v, len, e, h⟩ := strtod_exists .double cNum 0 ((chars "-Infinity" ++ [0]).drop 0)
  refine ⟨v, len, e, h, fun fb => ?_⟩
  obtain ⟨r, r1, r2, -, -, r5⟩ := C82_words .double cNum rfl (by show ¬ (_ ∨ _) ∧ ¬ (_ ∨ _) ∧ ¬ (_ ∨ _) ∧ ¬ (_ ∨ _); decide) fb 0 (chars "-Infinity" ++ [0]) 0 (some true) false
    (chars "Infinity") (chars "Infinity" ++ [0]) (nul_le.mpr (Nat.zero_le _)) rfl ⟨.infinity _ (by unfold Spells; decide), ⟨[0], rfl⟩,
      fun b w' hw' hp => (prefix_before (a := chars "Infinity") (b := []) hp (fun h => word_nonzero hw' 0 h rfl)).length_le⟩ v len e h
  exact ⟨r, r1, r5 rfl, r2⟩

/-- A zero is not the start of something hexadecimal if no `x` follows. -/
theorem zero_not_hex {n : Numeral} {c : Nat} {R t : List Nat} (hv : n.Valid) (hE : n.exp = none) (hc : c ≠ 'x'.toNat ∧ c ≠ 'X'.toNat)
    (ht : Hexadecimal '.'.toNat t) (hp : t <+: n.text ++ c :: R) : False := by
  obtain ⟨R', hR⟩ := hp
  obtain ⟨s, x, i, f, e, hx, -⟩ := ht
  have hm : n.mantText ≠ [] := by
    obtain ⟨s, i, f, e⟩ := n
    have h1 := hv.1
    rcases i with _ | ⟨d, i⟩
    · rcases f with _ | f
      · exact absurd rfl h1
      · simp [Numeral.mantText]
    · simp [Numeral.mantText]
  have hnx : n.expText = [] := by unfold Numeral.expText; rw [hE]
  rw [show n.text = scanText n ++ n.expText from rfl, hnx, List.append_nil] at hR
  unfold scanText at hR
  rw [List.append_assoc (signText s), List.append_assoc (signText n.sign)] at hR
  obtain ⟨-, h2⟩ := sign_split _ _ _ _ (by
    intro c hc
    simp at hc
    subst hc; decide) (mant_head hm) hR
  obtain ⟨sg, I, F, E⟩ := n
  have hxd : ¬ IsDig x := by rcases hx with rfl | rfl <;> (unfold IsDig; decide)
  rcases I with _ | ⟨d, _ | ⟨d', I⟩⟩
  · rcases F with _ | F
    · exact hm rfl
    · simp [Numeral.mantText] at h2
  · simp only [Numeral.mantText, List.map_cons, List.map_nil, List.cons_append, List.nil_append, List.cons.injEq] at h2
    obtain ⟨h3, h4⟩ := h2
    rcases F with _ | F
    · simp only [List.nil_append, List.cons.injEq] at h4
      rcases hx with rfl | rfl
      · exact hc.1 h4.1.symm
      · exact hc.2 h4.1.symm
    · simp only [List.cons_append, List.cons.injEq] at h4
      rcases hx with rfl | rfl <;> exact absurd h4.1 (by decide)
  · simp only [Numeral.mantText, List.map_cons, List.cons_append, List.cons.injEq] at h2
    exact hxd (h2.2.1 ▸ isDig_digitChar d')

/-- **C82, zeros.** On a zero without exponent part, not followed by `x` or `X`: the same signed zero, end pointer and `errno`. -/
theorem C82_zero (T : FloatType) (L : NumLocale) (hL : L.point = '.'.toNat) (fb : Fallback) (errno : Nat)
    (mem : List Nat) (str : Nat) (n : Numeral) (h : NumeralAt mem str n) (h0 : ∀ d ∈ n.int ++ n.fracDigits, d = 0)
    (hE : n.exp = none) (hx : ∀ c, mem[str + n.text.length]? = some c → c ≠ 'x'.toNat ∧ c ≠ 'X'.toNat)
    (v len errno' : Nat) (hs : Strtod T L errno (mem.drop str) v len errno') :
    ∃ r, atof T fb errno mem str = .ok r ∧ r.value = v ∧ r.strEnd = str + len ∧ r.errno = errno' := by
  have hat := C34_zero T fb errno mem str n h h0
  have hnx : n.expText = [] := by unfold Numeral.expText; rw [hE]
  obtain ⟨c, R, hd, he⟩ := h.text
  have hcx := hx c (by rw [← List.getElem?_drop, hd, List.getElem?_append_right (le_refl _)]; simp)
  have hm : n.mantText ≠ [] := by
    obtain ⟨s, i, f, e⟩ := n
    have h1 := h.valid.1
    rcases i with _ | ⟨d, i⟩
    · rcases f with _ | f
      · exact absurd rfl h1
      · simp [Numeral.mantText]
    · simp [Numeral.mantText]
  have hsub : IsSubject '.'.toNat n.text (n.text ++ c :: R) := by
    refine ⟨.decimal n h.valid, List.prefix_append _ _, fun t' ht' hp => ?_⟩
    cases ht' with
    | hexadecimal t' ht => exact (zero_not_hex h.valid hE hcx ht hp).elim
    | word s b w hw =>
      refine (not_word (n := n) (R := n.expText ++ c :: R) hm hw (s := s) ?_).elim
      rw [← List.append_assoc]; exact hp
    | decimal n' hv' =>
      rw [localText_dot] at hp ⊢
      by_contra hl
      push Not at hl
      rcases List.prefix_or_prefix_of_prefix hp (List.prefix_append n.text (c :: R)) with h | ⟨w, hw⟩
      · exact absurd h.length_le (by omega)
      · rcases w with _ | ⟨c', w⟩
        · rw [List.append_nil] at hw
          rw [hw] at hl; omega
        · rw [← hw, List.prefix_append_right_inj, List.cons_prefix_cons] at hp
          rw [hp.1] at hw
          exact not_extended h.valid he hw
  have hz : n.value = 0 := by
    have : n.absValue = 0 := by unfold Numeral.absValue; rw [digitsVal_all_zero h0]; simp
    unfold Numeral.value; rw [this]; simp
  have hcall : StrtodCall T L errno [] (n.text ++ c :: R) v len errno' := by
    rw [hd] at hs
    obtain ⟨x, X, hX, hxs⟩ : ∃ x X, n.text ++ c :: R = x :: X ∧ ¬ L.space x := by
      obtain ⟨s, I, F, E⟩ := n
      rcases s with _ | _ | _
      · rcases I with _ | ⟨d, I⟩
        · rcases F with _ | F
          · exact absurd rfl hm
          · exact ⟨_, _, rfl, fun h => (L.space_ok _ h).2.2.2.1 rfl⟩
        · exact ⟨_, _, rfl, fun h => (L.space_ok _ h).1 (isDig_digitChar d)⟩
      · exact ⟨_, _, rfl, fun h => (L.space_ok _ h).2.1 rfl⟩
      · exact ⟨_, _, rfl, fun h => (L.space_ok _ h).2.2.1 rfl⟩
    rw [hX] at hs ⊢
    exact strtod_call hxs hs
  have conv : ∀ n' : Numeral, IsSubject L.point (n'.localText L.point) (n.text ++ c :: R) → n' = n := fun n' hs => by
    rw [hL, localText_dot] at hs
    exact numeral_text_inj _ _ (isSubject_unique hs hsub)
  refine ⟨_, hat, ?_⟩
  cases hcall with
  | nothing _ hno _ => exact absurd hsub.here (hno _ (by rw [hL]; exact hsub.form))
  | number n' v e' hv hs' h5 => exact absurd hz (conv _ hs' ▸ h5)
  | zero n' hv hs' h5 =>
    have := conv _ hs'
    subst this
    refine ⟨?_, ?_, rfl⟩
    · show (if n'.sign = some true then neg T 0 else 0) = _
      unfold Numeral.isNeg
      rcases n'.sign with _ | _ | _ <;> cases T <;> rfl
    · show str + (n'.text.length - n'.expText.length) = _
      rw [hnx, hL, localText_dot]; simp
  | overflow n' hv hs' h5 =>
    rw [conv _ hs', hz, abs_zero] at h5
    exact absurd h5 (not_le.mpr (overflowThreshold_pos T))
  | hexadecimal t v e' h5 hs' => rw [hL] at h5; exact (zero_not_hex h.valid hE hcx h5 hs'.here).elim
  | word s b w v h5 hs' _ =>
    refine (not_word (n := n) (R := n.expText ++ c :: R) hm h5 (s := s) ?_).elim
    rw [← List.append_assoc]; exact hs'.here

/-- The hypotheses can be met: "-0.0," in memory. -/
example : ∃ v len e, Strtod .float cNum 0 ((chars "-0.0,"++ [0]).drop 0) v len e ∧
    ∀ fb, ∃ r, atof .float fb 0 (chars "-0.0," ++ [0]) 0 = .ok r ∧ r.value = v ∧ r.strEnd = 0 + len ∧ r.errno = e := by
  obtain ⟨v, len, e, h⟩ := strtod_exists .float cNum 0 ((chars "-0.0," ++ [0]).drop 0)
  refine ⟨v, len, e, h, fun fb => C82_zero .float cNum rfl fb 0 _ 0 ⟨some true, [0], some [0], none⟩ ⟨⟨by decide, by intro e he; cases he⟩,
    ⟨','.toNat, [0], rfl, by decide, by decide, by decide⟩, by decide, (by intro e he; cases he), (by intro e he; cases he)⟩ (by decide) rfl ?_ v len e h⟩
  intro c hc
  have : c = ','.toNat := by
    have h2 : (chars "-0.0," ++ [0])[0 + (Numeral.text ⟨some true, [0], some [0], none⟩).length]? = some ','.toNat := by decide
    have := h2.symm.trans hc
    exact (Option.some.inj this).symm
  subst this; decide

/-- How a subject sequence goes on behind its sign. -/
theorem subject_shape {t : List Nat} (h : Subject '.'.toNat t) : ∃ s c X, t = signText s ++ c :: X ∧
    (IsDig c ∨ (c = '.'.toNat ∧ ∃ d X', X = d :: X' ∧ IsDig d) ∨ (WordLetter c ∧ ∃ b, Word b (c :: X))) := by
  cases h with
  | decimal n hv =>
    obtain ⟨s, I, F, E⟩ := n
    rw [localText_dot]
    unfold Numeral.text Numeral.mantText
    rcases I with _ | ⟨d, I⟩
    · rcases F with _ | _ | ⟨d, F⟩
      · exact absurd rfl hv.1
      · exact absurd rfl hv.1
      · exact ⟨s, _, _, by simp only [List.append_assoc, List.map_nil, List.nil_append, List.cons_append]; rfl, Or.inr (Or.inl ⟨rfl, _, _, rfl, isDig_digitChar d⟩)⟩
    · exact ⟨s, _, _, by simp only [List.append_assoc, List.map_cons, List.cons_append]; rfl, Or.inl (isDig_digitChar d)⟩
  | hexadecimal t h =>
    obtain ⟨s, x, i, f, e, -⟩ := h
    exact ⟨s, _, _, rfl, Or.inl (by unfold IsDig; decide)⟩
  | word s b w h =>
    obtain ⟨c, R, rfl, hc⟩ := word_head h
    exact ⟨s, c, R, rfl, Or.inr (Or.inr ⟨hc, b, h⟩)⟩

theorem noNumber_noSubject {text : List Nat} {s : Option Bool} {k : Nat} (h : NoNumber text s k) :
    ∀ t, Subject '.'.toNat t → ¬ t <+: text := by
  rintro t ht ⟨R', hR⟩
  obtain ⟨s', c', X, rfl, hX⟩ := subject_shape ht
  have hnd : ¬ IsDig '.'.toNat := by unfold IsDig; decide
  have hsgn : c' ≠ '+'.toNat ∧ c' ≠ '-'.toNat := by
    rcases hX with h | ⟨rfl, -⟩ | ⟨h, -⟩
    · constructor <;> rintro rfl <;> revert h <;> unfold IsDig <;> decide
    · decide
    · exact (word_letter h).2.2
  rw [List.append_assoc, List.cons_append] at hR
  cases h with
  | bare s dot c R g1 g2 g3 =>
    have key : c' :: (X ++ R') = dotText dot ++ c :: R := by
      rcases s with _ | _ | _ <;> rcases s' with _ | _ | _ <;>
        simp only [signText, List.nil_append, List.cons_append, List.cons.injEq] at hR
      · exact hR
      · cases dot
        · have := g3 rfl rfl
          simp only [dotText, List.nil_append, List.cons.injEq] at hR
          exact absurd hR.1.symm this.2
        · simp only [dotText, List.cons_append, List.cons.injEq] at hR
          exact absurd hR.1 (by decide)
      · cases dot
        · have := g3 rfl rfl
          simp only [dotText, List.nil_append, List.cons.injEq] at hR
          exact absurd hR.1.symm this.1
        · simp only [dotText, List.cons_append, List.cons.injEq] at hR
          exact absurd hR.1 (by decide)
      · exact absurd hR.1 hsgn.1
      · exact hR.2
      · exact absurd hR.1 (by decide)
      · exact absurd hR.1 hsgn.2
      · exact absurd hR.1 (by decide)
      · exact hR.2
    cases dot
    · simp only [dotText, List.nil_append, List.cons.injEq] at key
      obtain ⟨e1, -⟩ := key
      subst e1
      rcases hX with h | ⟨h, -⟩ | ⟨h, -⟩
      · exact g1 h
      · exact (g2 rfl).1 h
      · exact (g2 rfl).2 h
    · simp only [dotText, List.cons_append, List.nil_append, List.cons.injEq] at key
      obtain ⟨e1, e2⟩ := key
      subst e1
      rcases hX with h | ⟨-, d, X', rfl, hd⟩ | ⟨h, -⟩
      · exact hnd h
      · simp only [List.cons_append, List.cons.injEq] at e2
        exact g1 (e2.1 ▸ hd)
      · exact (word_letter h).2.1 rfl
  | half s c R g1 g2 =>
    obtain ⟨-, e⟩ := sign_split _ _ _ _ (by intro x hx; simp at hx; subst hx; exact hsgn)
      (by intro x hx; simp at hx; subst hx; exact (word_letter g1).2.2) hR
    rw [List.cons.injEq] at e
    obtain ⟨e1, e2⟩ := e
    subst e1
    rcases hX with h | ⟨h, -⟩ | ⟨-, b, h⟩
    · exact (word_letter g1).1 h
    · exact (word_letter g1).2.1 h
    · exact g2 b _ h ⟨R', by rw [List.cons_append, e2]⟩

/-- **C82, nothing to read.** On a text that starts neither with a number, nor with a word, nor with white space, `strtod` returns
zero and does not move the end pointer.  `atof` returns zero, negative if there is a minus sign, but moves the end
pointer over a sign, a point or a letter (C32). -/
theorem C82_no_number (T : FloatType) (L : NumLocale) (hL : L.point = '.'.toNat) (fb : Fallback) (errno : Nat)
    (mem : List Nat) (str : Nat) (s : Option Bool) (k : Nat) (hn : Nul mem str) (h : NoNumber (mem.drop str) s k)
    (hw : ∀ c, mem[str]? = some c → ¬ L.space c) (v len errno' : Nat) (hs : Strtod T L errno (mem.drop str) v len errno') :
    v = 0 ∧ len = 0 ∧ ∃ r, atof T fb errno mem str = .ok r ∧ r.value = (if s = some true then neg T v else v) ∧ r.strEnd = str + len + k := by
  have hno := noNumber_noSubject h
  have hne : ∃ c R, mem.drop str = c :: R := by
    rcases hd : mem.drop str with _ | ⟨c, R⟩
    · rw [hd] at h
      generalize hg : ([] : List Nat) = g at h
      cases h with
      | bare s dot c R => rcases s with _ | _ | _ <;> cases dot <;> cases hg
      | half s c R => rcases s with _ | _ | _ <;> cases hg
    · exact ⟨c, R, rfl⟩
  obtain ⟨c, R, hd⟩ := hne
  have hcall : StrtodCall T L errno [] (mem.drop str) v len errno' := by
    rw [hd] at hs ⊢
    refine strtod_call (hw c ?_) hs
    have : (mem.drop str)[0]? = some c := by rw [hd]; rfl
    rwa [List.getElem?_drop, Nat.add_zero] at this
  rw [← hL] at hno
  have : v = 0 ∧ len = 0 := by
    cases hcall with
    | nothing => exact ⟨rfl, rfl⟩
    | number n v e' hv hs' => exact absurd hs'.here (hno _ hs'.form)
    | zero n hv hs' => exact absurd hs'.here (hno _ hs'.form)
    | overflow n hv hs' => exact absurd hs'.here (hno _ hs'.form)
    | hexadecimal t v e' h5 hs' => exact absurd hs'.here (hno _ hs'.form)
    | word s b w v h5 hs' => exact absurd hs'.here (hno _ hs'.form)
  obtain ⟨rfl, rfl⟩ := this
  exact ⟨rfl, rfl, _, C32_no_number T fb errno mem str s k hn h, rfl, rfl⟩

/-- "-abc", which `strtod` does not touch: `atof` returns negative zero and stops behind the minus sign. -/
example : ∃ v len e, Strtod .double cNum 0 ((chars "-abc" ++ [0]).drop 0) v len e ∧ v = 0 ∧ len = 0 ∧
    ∀ fb, ∃ r, atof .double fb 0 (chars "-abc" ++ [0]) 0 = .ok r ∧ r.value = 2 ^ 63 ∧ r.strEnd = 1 := by
  obtain ⟨v, len, e, h⟩ := strtod_exists .double cNum 0 ((chars "-abc" ++ [0]).drop 0)
  have hnn : NoNumber ((chars "-abc" ++ [0]).drop 0) (some true) 1 := by
    rw [show List.drop 0 (chars "-abc" ++ [0] : List Nat) = signText (some true) ++ (dotText false ++ 'a'.toNat :: (chars "bc" ++ [0])) by decide]
    exact NoNumber.bare (some true) false 'a'.toNat (chars "bc" ++ [0]) (by decide) (fun _ => by unfold WordLetter; decide) (fun h => by cases h)
  have key := fun fb => C82_no_number .double cNum rfl fb 0 (chars "-abc" ++ [0]) 0 (some true) 1 (nul_le.mpr (Nat.zero_le _)) hnn
    (fun c hc => by
      have : c = '-'.toNat := (Option.some.inj hc).symm
      subst this; show ¬ (_ ∨ _); decide) v len e h
  obtain ⟨h1, h2, -⟩ := key (fun _ _ e => ⟨0, 0, e⟩)
  refine ⟨v, len, e, h, h1, h2, fun fb => ?_⟩
  obtain ⟨-, -, r, r1, r2, r3⟩ := key fb
  exact ⟨r, r1, by rw [r2, h1]; rfl, by rw [r3, h2]⟩

/-- The end pointer is behind the subject sequence. -/
theorem strtod_len {T : FloatType} {L : NumLocale} {errno : Nat} {c : Nat} {R t : List Nat} {v len errno' : Nat} (hc : ¬ L.space c)
    (ht : IsSubject L.point t (c :: R)) (h : Strtod T L errno (c :: R) v len errno') : len = t.length := by
  have := strtod_call hc h
  cases this with
  | nothing _ hno _ => exact absurd ht.here (hno _ ht.form)
  | number n v e' hv hs => rw [isSubject_unique ht hs]; simp
  | zero n hv hs => rw [isSubject_unique ht hs]; simp
  | overflow n hv hs => rw [isSubject_unique ht hs]; simp
  | hexadecimal t v e' h5 hs => rw [isSubject_unique ht hs]; simp
  | word s b w v h5 hs => rw [isSubject_unique ht hs]; simp

/-- **C82, white space.** `strtod` skips white space, `atof` does not: with a space in front of whatever `strtod` reads, `atof`
returns zero and does not move the end pointer. -/
theorem C82_white_space (T : FloatType) (L : NumLocale) (fb : Fallback) (errno : Nat)
    (mem : List Nat) (str c : Nat) (hn : Nul mem str) (hc : mem[str]? = some c) (hw : L.space c) (hl : ¬ WordLetter c)
    (rest : List Nat) (hr : mem.drop str = c :: rest) (v len errno' : Nat) (hs : Strtod T L errno rest v len errno') (h0 : len ≠ 0) :
    Strtod T L errno (mem.drop str) v (len + 1) errno' ∧ atof T fb errno mem str = .ok ⟨0, .success, str, errno, false⟩ := by
  obtain ⟨g1, g2, g3, g4, -, -⟩ := L.space_ok c hw
  constructor
  · obtain ⟨ws, R, h1, h2, h3, h4⟩ := hs
    refine ⟨c :: ws, R, by rw [hr, h1]; rfl, by intro x hx; rcases List.mem_cons.mp hx with rfl | hx; exacts [hw, h2 x hx], h3, ?_⟩
    cases h4 with
    | nothing => exact absurd rfl h0
    | number n v e' a b d e f =>
      have := StrtodCall.number (T := T) (errno := errno) (ws := c :: ws) n v errno' a b d e f
      rwa [show (c :: ws).length + (n.localText L.point).length = ws.length + (n.localText L.point).length + 1 by simp; omega] at this
    | zero n a b d =>
      have := StrtodCall.zero (T := T) (errno := errno) (ws := c :: ws) n a b d
      rwa [show (c :: ws).length + (n.localText L.point).length = ws.length + (n.localText L.point).length + 1 by simp; omega] at this
    | overflow n a b d =>
      have := StrtodCall.overflow (T := T) (errno := errno) (ws := c :: ws) n a b d
      rwa [show (c :: ws).length + (n.localText L.point).length = ws.length + (n.localText L.point).length + 1 by simp; omega] at this
    | hexadecimal t v e' a b =>
      have := StrtodCall.hexadecimal (T := T) (errno := errno) (ws := c :: ws) t v errno' a b
      rwa [show (c :: ws).length + t.length = ws.length + t.length + 1 by simp; omega] at this
    | word s b w v a d e =>
      have := StrtodCall.word (T := T) (errno := errno) (ws := c :: ws) s b w v a d e
      rwa [show (c :: ws).length + (signText s ++ w).length = ws.length + (signText s ++ w).length + 1 by simp; omega] at this
  · have := C32_no_number T fb errno mem str none 0 hn (by
      rw [hr]
      exact .bare none false c rest g1 (fun _ => ⟨g4, hl⟩) (fun _ _ => ⟨g3, g2⟩))
    simpa using this

/-- " 12": `strtod` reads three characters, `atof` none. -/
example (fb : Fallback) : ∃ v len e, Strtod .double cNum 0 (chars " 12" ++ [0]) v len e ∧ len = 3 ∧
    atof .double fb 0 (chars " 12" ++ [0]) 0 = .ok ⟨0, .success, 0, 0, false⟩ := by
  obtain ⟨v, len, e, h⟩ := strtod_exists .double cNum 0 (chars "12" ++ [0])
  have hl : len = 2 := by
    refine strtod_len (t := chars "12") (c := '1'.toNat) (by show ¬ (_ ∨ _); decide)
      ⟨.decimal ⟨none, [1, 2], none, none⟩ ⟨by decide, by intro e he; cases he⟩, ⟨[0], by decide⟩, fun t' ht' hp => ?_⟩ h
    exact (prefix_before (a := chars "12") (b := []) hp (fun h => subject_nonzero (by decide) ht' 0 h rfl)).length_le
  have key := C82_white_space .double cNum fb 0 (chars " 12" ++ [0]) 0 ' '.toNat (nul_le.mpr (Nat.zero_le _)) rfl
    (by show _ ∨ _; decide) (by unfold WordLetter; decide) _ rfl v len e h (by omega)
  exact ⟨v, len + 1, e, key.1, by omega, key.2⟩

/-- **C82 is false of other texts:** on "0e5" and "0x10", `atof` stops behind the first zero, `strtod` behind the last character. -/
theorem C82_refuted (fb : Fallback) :
    (∃ r, atof .double fb 0 (chars "0e5" ++ [0]) 0 = .ok r ∧ r.strEnd = 1) ∧
    (∀ v len e, Strtod .double cNum 0 (chars "0e5" ++ [0]) v len e → len = 3) ∧
    (∃ r, atof .double fb 0 (chars "0x10" ++ [0]) 0 = .ok r ∧ r.strEnd = 1) ∧
    (∀ v len e, Strtod .double cNum 0 (chars "0x10" ++ [0]) v len e → len = 4) := by
  have sp : ¬ cNum.space '0'.toNat := by
    rintro (h | h) <;> revert h <;> decide
  refine ⟨?_, fun v len e hs => ?_, ?_, fun v len e hs => ?_⟩
  · have h : krosh .double (chars "0e5" ++ [0]) 0 = .ok ⟨0, 1, .success, true⟩ := by decide +kernel
    rw [atof_of_krosh h (by decide)]
    exact ⟨_, rfl, rfl⟩
  · refine strtod_len (t := chars "0e5") sp ⟨.decimal ⟨none, [0], none, some ⟨false, none, [5]⟩⟩ ⟨by decide, by intro e he; cases he; decide⟩,
      ⟨[0], by decide⟩, fun t' ht' hp => ?_⟩ hs
    have h0 : (0 : Nat) ∉ t' := fun h => subject_nonzero (by decide) ht' 0 h rfl
    exact (prefix_before (a := chars "0e5") (b := []) hp h0).length_le
  · have h : krosh .double (chars "0x10" ++ [0]) 0 = .ok ⟨0, 1, .success, true⟩ := by decide +kernel
    rw [atof_of_krosh h (by decide)]
    exact ⟨_, rfl, rfl⟩
  · have hx : Hexadecimal '.'.toNat (chars "0x10") :=
      .mk none 'x'.toNat (chars "10") [] [] (Or.inl rfl) (by unfold HexDigit; decide) (Or.inl rfl) (Or.inl (by decide)) (Or.inl rfl)
    refine strtod_len (t := chars "0x10") sp ⟨.hexadecimal _ hx, ⟨[0], rfl⟩, fun t' ht' hp => ?_⟩ hs
    have h0 : (0 : Nat) ∉ t' := fun h => subject_nonzero (by decide) ht' 0 h rfl
    exact (prefix_before (a := chars "0x10") (b := []) hp h0).length_le

end Floaxie
