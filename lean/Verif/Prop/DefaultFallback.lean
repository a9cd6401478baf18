import Verif.Proof.Strtod
import Verif.Proof.RoundFun
import Verif.Proof.Frame
import Verif.Prop.Total
import Verif.Prop.Cycles
import Verif.Prop.Status

/-!
# `atof` with the C library's function as fallback (C71)

The default fallback is `strtof`, `strtod`, `wcstof` or `wcstod`
(default_fallback.h:35-71).  `Spec/Strtod.lean` says what ISO C demands of these.
-/

namespace Floaxie

open Spec FloatType

/-- The fallback does on every NUL-terminated string what ISO C demands, in the locale `L`. -/
def Conforming (T : FloatType) (L : NumLocale) (fb : Fallback) : Prop :=
  ∀ mem str errno, Nul mem str → ∃ len, (fb mem str errno).strEnd = str + len ∧
    Strtod T L errno (mem.drop str) (fb mem str errno).value len (fb mem str errno).errno

/-- The longest subject sequence. -/
theorem exists_subject {p : Nat} {t rest : List Nat} (h : Subject p t) (hp : t <+: rest) : ∃ t', IsSubject p t' rest := by
  classical
  let P : Nat → Prop := fun k => Subject p (rest.take k)
  have h1 : P t.length := by
    show Subject p (rest.take t.length)
    rw [← List.prefix_iff_eq_take.mp hp]; exact h
  have h2 := Nat.findGreatest_spec (P := P) hp.length_le h1
  refine ⟨_, h2, List.take_prefix _ _, fun t' ht' hp' => ?_⟩
  have h3 : P t'.length := by
    show Subject p (rest.take t'.length)
    rw [← List.prefix_iff_eq_take.mp hp']; exact ht'
  rw [List.length_take, min_eq_left (Nat.findGreatest_le _)]
  exact Nat.le_findGreatest hp'.length_le h3

/-- The specification can be met on every text. -/
theorem strtod_exists (T : FloatType) (L : NumLocale) (errno : Nat) (text : List Nat) : ∃ v len errno', Strtod T L errno text v len errno' := by
  classical
  have hcall : ∀ ws rest, ∃ v len errno', StrtodCall T L errno ws rest v len errno' := by
    intro ws rest
    by_cases h : ∃ t, Subject L.point t ∧ t <+: rest
    · obtain ⟨t0, h1, h2⟩ := h
      obtain ⟨t, ht⟩ := exists_subject h1 h2
      have hf := ht.form
      cases hf with
      | decimal n hv =>
        by_cases h0 : n.value = 0
        · exact ⟨_, _, _, .zero n hv ht h0⟩
        · by_cases hx : |n.value| < overflowThreshold T
          · obtain ⟨b, hb, -⟩ := roundsTo_total hx
            exact ⟨_, _, _, .number n b errno hv ht h0 hb (Or.inl rfl)⟩
          · exact ⟨_, _, _, .overflow n hv ht (not_lt.mp hx)⟩
      | hexadecimal t h => exact ⟨_, _, _, .hexadecimal t 0 errno h ht⟩
      | word s b w h =>
        cases b with
        | true =>
          refine ⟨_, _, _, .word s true w T.qnanBits h ht ?_⟩
          cases T <;> exact ⟨by decide, by decide, by decide⟩
        | false =>
          by_cases hs : s = some true
          · refine ⟨_, _, _, .word s false w (negBits T T.infBits) h ht ?_⟩
            simp only [Bool.false_eq_true, if_false, hs, iff_true]
            cases T <;> exact ⟨⟨by decide, by decide, by decide⟩, by decide⟩
          · refine ⟨_, _, _, .word s false w T.infBits h ht ?_⟩
            simp only [Bool.false_eq_true, if_false, hs, iff_false]
            cases T <;> exact ⟨⟨by decide, by decide, by decide⟩, by decide⟩
    · push Not at h
      exact ⟨_, _, _, .nothing errno h (Or.inl rfl)⟩
  obtain ⟨v, len, e, h⟩ := hcall (text.takeWhile (fun c => decide (L.space c))) (text.dropWhile (fun c => decide (L.space c)))
  refine ⟨v, len, e, _, _, List.takeWhile_append_dropWhile.symm, fun c hc => ?_, fun c hc => ?_, h⟩
  · simpa using List.mem_takeWhile_imp hc
  · have := List.head?_dropWhile_not (fun c => decide (L.space c)) text
    rw [hc] at this
    simpa using this

/-- There are conforming functions, in every locale. -/
theorem conforming_exists (T : FloatType) (L : NumLocale) : ∃ fb, Conforming T L fb := by
  choose v len e h using fun errno text => strtod_exists T L errno text
  exact ⟨fun mem str errno => ⟨v errno (mem.drop str), str + len errno (mem.drop str), e errno (mem.drop str)⟩,
    fun mem str errno _ => ⟨_, rfl, h _ _⟩⟩

/-- The fallback is only asked about numbers other than zero. -/
theorem asked_number {T : FloatType} {mem : List Nat} {str : Nat} {r : KroshResult} (hn : Nul mem str)
    (h : krosh T mem str = .ok r) (ha : r.isAccurate = false) :
    ∃ n R, n.exp = none ∧ mem.drop str = scanText n ++ R ∧ digitsVal (allDigits n) ≠ 0 := by
  obtain ⟨dp, mp, h1, h2, -, -, -, h6, h7⟩ := parseMantissa_total (T := T) hn
  have hv : dp.value ≠ 0 := by
    intro h0
    unfold krosh at h
    rw [h2, ok_bind, if_neg (by rw [h7 h0]; simp)] at h
    rw [← Except.ok.inj h] at ha
    simp at ha
  cases h1 with
  | num n P K frac c g1 g2 g3 g4 g5 g6 => exact ⟨n, _, g1, g3, fun hz => hv (g6.zero_iff.mpr (by unfold mantVal; rw [hz]; simp))⟩
  | limit n P K frac g1 g2 g3 g6 => exact ⟨n, _, g1, g3, fun hz => hv (g6.zero_iff.mpr (by unfold mantVal; rw [hz]; simp))⟩
  | word => exact absurd rfl hv

/-- What `atof` returns when the fallback is asked. -/
theorem asked_result {T : FloatType} {fb : Fallback} {errno : Nat} {mem : List Nat} {str : Nat} {r : AtofResult}
    (h : atof T fb errno mem str = .ok r) (hf : r.fellBack = true) :
    (∃ k, krosh T mem str = .ok k ∧ k.isAccurate = false) ∧
    r = ⟨(fb mem str errno).value, checkErrno T (fb mem str errno).errno (fb mem str errno).value, (fb mem str errno).strEnd,
      (fb mem str errno).errno, true⟩ := by
  unfold atof at h
  obtain ⟨k, h1, h2⟩ := bindOk h
  by_cases c1 : k.strEnd ≠ str
  · rw [if_pos c1] at h2
    cases c2 : k.isAccurate
    · rw [c2, if_neg (by simp)] at h2
      exact ⟨⟨k, h1, c2⟩, (Except.ok.inj h2).symm⟩
    · rw [c2, if_pos rfl] at h2
      rw [← Except.ok.inj h2] at hf
      cases hf
  · rw [if_neg c1] at h2
    rw [← Except.ok.inj h2] at hf
    cases hf

/-- **C71, asked.** Decimal point `.`.  Whatever the string, if the fallback is asked, the text
starts with a decimal numeral other than zero; the result is the longest such numeral, correctly
rounded however many digits it has (infinity with status overflow if it is too large), and the end pointer is behind
it.  The status is success if `errno` was not `ERANGE` and the number is in the normal range. -/
theorem C71_asked (T : FloatType) (L : NumLocale) (hL : L.point = '.'.toNat) (fb : Fallback) (hc : Conforming T L fb)
    (errno : Nat) (mem : List Nat) (str : Nat) (hn : Nul mem str) (r : AtofResult)
    (h : atof T fb errno mem str = .ok r) (hf : r.fellBack = true) :
    ∃ n : Numeral, n.Valid ∧ IsSubject '.'.toNat n.text (mem.drop str) ∧ n.value ≠ 0 ∧ r.strEnd = str + n.text.length ∧
      (|n.value| < overflowThreshold T → RoundsTo T n.value r.value) ∧
      (overflowThreshold T ≤ |n.value| → IsInf T r.value ∧ (signBit T r.value = 1 ↔ n.value < 0) ∧ r.status = .overflow) ∧
      (errno ≠ ERANGE → 2 ^ (T.minExp - 1) ≤ |n.value| → |n.value| < overflowThreshold T → r.status = .success ∧ r.errno = errno) := by
  obtain ⟨⟨k, k1, k2⟩, hr⟩ := asked_result h hf
  obtain ⟨n, R, -, g2, g3⟩ := asked_number hn k1 k2
  obtain ⟨len, c1, c2⟩ := hc mem str errno hn
  rw [g2] at c2
  obtain ⟨n', e1, e2, e3, e4, e5⟩ := strtod_number hL g3 c2
  refine ⟨n', e1, by rw [g2]; exact e2, e3, by rw [hr, c1, e4], ?_⟩
  have hneg : n'.value < 0 ↔ n'.isNeg = true := by
    have hpos : 0 ≤ n'.absValue := by unfold Numeral.absValue; positivity
    unfold Numeral.value at e3 ⊢
    split_ifs with hs
    · rw [if_pos hs] at e3
      simp only [hs, iff_true]
      rcases lt_or_eq_of_le hpos with h | h
      · linarith
      · rw [← h] at e3; simp at e3
    · rw [iff_false_right (by simpa using hs), not_lt]
      exact hpos
  rcases e5 with ⟨f1, f2⟩ | ⟨f1, f2, f3⟩
  · refine ⟨fun _ => by rw [hr]; exact f1, fun hx => absurd f1.2.1 (not_lt.mpr hx), fun he hx _ => ?_⟩
    have : (fb mem str errno).errno = errno := by
      rcases f2 with f2 | f2
      · exact f2
      · exact absurd f2.2 (not_lt.mpr hx)
    rw [hr]
    refine ⟨?_, this⟩
    show checkErrno T _ _ = _
    unfold checkErrno
    rw [if_pos (by rw [this]; exact he)]
  · refine ⟨fun hx => absurd hx (not_lt.mpr f1), fun _ => ?_, fun _ _ hx => absurd hx (not_lt.mpr f1)⟩
    have hi : IsInf T r.value ∧ (signBit T r.value = 1 ↔ n'.isNeg = true) := by
      rw [hr]
      show IsInf T (fb mem str errno).value ∧ (signBit T (fb mem str errno).value = 1 ↔ _)
      rw [f2]
      cases n'.isNeg <;> cases T <;> exact ⟨⟨by decide, by decide, by decide⟩, by decide⟩
    refine ⟨hi.1, by rw [hi.2, hneg], ?_⟩
    rw [hr]
    show checkErrno T _ _ = _
    unfold checkErrno
    rw [f3, if_neg (by decide), if_pos]
    rw [f2]
    cases n'.isNeg <;> cases T <;> decide

/-- **C71, short numerals.** Decimal point `.`, a numeral as in C20: `atof` returns the
correctly rounded value - or loses the carry (C21) - with the end pointer behind the numeral; no
assumption is left about the fallback but that it is the C library's. -/
theorem C71_short (T : FloatType) (L : NumLocale) (hL : L.point = '.'.toNat) (fb : Fallback) (hc : Conforming T L fb)
    (errno : Nat) (mem : List Nat) (str : Nat) (hn : Nul mem str)
    (n : Numeral) (h : NumeralAt mem str n) (m : Nat) (k : Int) (hm : m < 10 ^ T.digits10)
    (hmk : n.absValue = m * 10 ^ k) (hk : T = .float → -50 ≤ k)
    (hx1 : 2 ^ emin T ≤ n.absValue) (hx2 : n.absValue < overflowThreshold T) :
    ∃ r b, atof T fb errno mem str = .ok r ∧ RoundsTo T n.value b ∧ (r.value = b ∨ CarryLost T n.value b r.value) ∧
      r.strEnd = str + n.text.length ∧ (errno ≠ ERANGE → 2 ^ (T.minExp - 1) ≤ n.absValue → r.status = .success) := by
  obtain ⟨r, r1, r2⟩ := C20_short_correctly_rounded T fb errno mem str n h m k hm hmk hk hx1 hx2
  have habs : |n.value| = n.absValue := by
    have : 0 ≤ n.absValue := by unfold Numeral.absValue; positivity
    unfold Numeral.value; split_ifs <;> simp [abs_of_nonneg this]
  rcases r2 with r2 | ⟨b, v, b1, b2, b3⟩
  · obtain ⟨n', e1, e2, e3, e4, e5, -, e7⟩ := C71_asked T L hL fb hc errno mem str hn r r1 r2.1
    obtain ⟨c, R, hd, he⟩ := h.text
    have hv0 : n.value ≠ 0 := by
      intro h0
      rw [← habs, h0, abs_zero] at hx1
      exact absurd hx1 (not_le.mpr (zpow_pos (by norm_num) _))
    rw [hd] at e2
    have := numeral_text_inj _ _ (isSubject_unique e2 (isSubject_numeral h.valid he hv0))
    subst this
    rw [habs] at e5 e7
    exact ⟨r, r.value, r1, e5 hx2, Or.inl rfl, e4, fun h1 h2 => (e7 h1 h2 hx2).1⟩
  · exact ⟨r, b, r1, b1, by rw [show r.value = v by rw [b2]]; exact b3, by rw [b2], fun _ _ => by rw [b2]⟩

/-- The hypotheses can be met: "-0.1" and any conforming function. -/
example : ∃ fb r b, Conforming .double cNum fb ∧ atof .double fb 0 (minusTenth.text ++ [0]) 0 = .ok r ∧ RoundsTo .double minusTenth.value b ∧
    (r.value = b ∨ CarryLost .double minusTenth.value b r.value) := by
  obtain ⟨fb, hc⟩ := conforming_exists .double cNum
  have e1 : emin .double = -1074 := by decide
  have h1 : minusTenth.absValue = 1 / 10 := by rw [minusTenth_abs]; norm_num
  obtain ⟨r, b, r1, r2, r3, -⟩ := C71_short .double cNum rfl fb hc 0 _ 0 (nul_le.mpr (Nat.zero_le _)) minusTenth minusTenth_at 1 (-1)
    (by decide) minusTenth_abs (fun h => by cases h)
    (by
      rw [h1, e1]
      exact le_trans (zpow_le_zpow_right₀ (by norm_num) (by norm_num : (-1074 : Int) ≤ -4)) (by norm_num))
    (by
      rw [h1, overflowThreshold]
      have h2 : (2 : ℚ) ^ (FloatType.double.maxExp - FloatType.double.p - 1) * 2 ≤ 2 ^ FloatType.double.maxExp := by
        rw [← zpow_add_one₀ (by norm_num)]
        exact zpow_le_zpow_right₀ (by norm_num) (by decide)
      have h3 : (1 : ℚ) ≤ 2 ^ (FloatType.double.maxExp - FloatType.double.p - 1) := one_le_zpow₀ (by norm_num) (by decide)
      linarith)
  exact ⟨fb, r, b, hc, r1, r2, r3⟩

/-! ## Any decimal point -/

theorem word_nonzero {b : Bool} {w : List Nat} (h : Word b w) : ∀ c ∈ w, c ≠ 0 := by
  have sp : ∀ {x : String} {t : List Nat}, Spells x t → (∀ c ∈ chars x, c ≠ 0) → ∀ c ∈ t, c ≠ 0 := by
    intro x t ht hx c hc h0
    subst h0
    refine hx 0 ?_ rfl
    rw [← show t.map lower = chars x from ht]
    exact List.mem_map.mpr ⟨0, hc, by decide⟩
  cases h with
  | nan t h => exact sp h (by decide)
  | nanSeq t u h hu =>
    intro c hc
    rcases List.mem_append.mp hc with hc | hc
    · exact sp h (by decide) c hc
    · rcases List.mem_cons.mp hc with rfl | hc
      · decide
      · rcases List.mem_append.mp hc with hc | hc
        · rintro rfl
          rcases hu 0 hc with h | h | h | h <;> revert h <;> decide
        · simp at hc; subst hc; decide
  | inf t h => exact sp h (by decide)
  | infinity t h => exact sp h (by decide)

theorem signText_nonzero (s : Option Bool) : ∀ c ∈ signText s, c ≠ 0 := by
  rcases s with _ | _ | _ <;> decide

theorem expPart_nonzero (e : ExpPart) : ∀ c ∈ e.text, c ≠ 0 := by
  intro c hc
  unfold ExpPart.text at hc
  rcases List.mem_cons.mp hc with rfl | hc
  · split_ifs <;> decide
  · rcases List.mem_append.mp hc with hc | hc
    · exact signText_nonzero _ c hc
    · obtain ⟨d, -, rfl⟩ := List.mem_map.mp hc
      exact digitChar_ne_zero d

/-- No NUL in a subject sequence. -/
theorem subject_nonzero {p : Nat} {t : List Nat} (hp : p ≠ 0) (h : Subject p t) : ∀ c ∈ t, c ≠ 0 := by
  cases h with
  | decimal n hv =>
    intro c hc
    unfold Numeral.localText at hc
    rcases List.mem_append.mp hc with hc | hc
    · rcases List.mem_append.mp hc with hc | hc
      · exact signText_nonzero _ c hc
      · rcases List.mem_append.mp hc with hc | hc
        · obtain ⟨d, -, rfl⟩ := List.mem_map.mp hc
          exact digitChar_ne_zero d
        · split at hc
          · simp at hc
          · rcases List.mem_cons.mp hc with rfl | hc
            · exact hp
            · obtain ⟨d, -, rfl⟩ := List.mem_map.mp hc
              exact digitChar_ne_zero d
    · unfold Numeral.expText at hc
      split at hc
      · simp at hc
      · exact expPart_nonzero _ c hc
  | hexadecimal t h =>
    obtain ⟨s, x, i, f, e, hx, hi, hf, -, he⟩ := h
    have hz : ¬ HexDigit 0 := by
      rintro (h | h | h) <;> revert h <;> decide
    intro c hc h0
    subst h0
    rcases List.mem_append.mp hc with hc | hc
    · exact signText_nonzero _ 0 hc rfl
    · rcases List.mem_cons.mp hc with h | hc
      · exact absurd h (by decide)
      · rcases List.mem_cons.mp hc with h | hc
        · rcases hx with rfl | rfl <;> exact absurd h (by decide)
        · rcases List.mem_append.mp hc with hc | hc
          · rcases List.mem_append.mp hc with hc | hc
            · exact hz (hi 0 hc)
            · rcases hf with rfl | ⟨ds, rfl, hd⟩
              · simp at hc
              · rcases List.mem_cons.mp hc with h | hc
                · exact hp h.symm
                · exact hz (hd 0 hc)
          · rcases he with rfl | ⟨q, u, ds, hq, -, rfl⟩
            · simp at hc
            · rcases List.mem_cons.mp hc with h | hc
              · rcases hq with rfl | rfl <;> exact absurd h (by decide)
              · rcases List.mem_append.mp hc with hc | hc
                · exact signText_nonzero _ 0 hc rfl
                · obtain ⟨d, -, h⟩ := List.mem_map.mp hc
                  exact digitChar_ne_zero d h
  | word s b w h =>
    intro c hc
    rcases List.mem_append.mp hc with hc | hc
    · exact signText_nonzero _ c hc
    · exact word_nonzero h c hc

theorem call_length {T : FloatType} {L : NumLocale} {errno : Nat} {ws rest : List Nat} {v len errno' : Nat}
    (h : StrtodCall T L errno ws rest v len errno') : len = 0 ∨ ∃ t, Subject L.point t ∧ t <+: rest ∧ len = ws.length + t.length := by
  cases h with
  | nothing => exact Or.inl rfl
  | number n v e' hv hs => exact Or.inr ⟨_, hs.form, hs.here, rfl⟩
  | zero n hv hs => exact Or.inr ⟨_, hs.form, hs.here, rfl⟩
  | overflow n hv hs => exact Or.inr ⟨_, hs.form, hs.here, rfl⟩
  | hexadecimal t v e' h5 hs => exact Or.inr ⟨_, hs.form, hs.here, rfl⟩
  | word s b w v h5 hs => exact Or.inr ⟨_, hs.form, hs.here, rfl⟩

/-- **C71, end pointer.** With the C library's function as fallback, in any locale and on
every NUL-terminated string: the end pointer lies between the start of the string and its
terminator, whether the fallback is asked or not. -/
theorem C71_end_inside (T : FloatType) (L : NumLocale) (fb : Fallback) (hc : Conforming T L fb) (errno : Nat)
    (pre s post : List Nat) (r : AtofResult) (h : atof T fb errno (pre ++ s ++ 0 :: post) pre.length = .ok r) :
    pre.length ≤ r.strEnd ∧ r.strEnd ≤ pre.length + s.length := by
  cases hf : r.fellBack
  · exact C29_end_inside T fb errno pre s post r h hf
  · obtain ⟨-, hr⟩ := asked_result h hf
    obtain ⟨len, c1, ws, rest, c2, c3, -, c5⟩ := hc _ _ errno (nul_str (pre := pre) (s := s) (post := post))
    rw [hr]
    show _ ≤ (fb _ _ errno).strEnd ∧ (fb _ _ errno).strEnd ≤ _
    rw [c1]
    refine ⟨by omega, ?_⟩
    rw [List.append_assoc, List.drop_left] at c2
    rcases call_length c5 with h | ⟨t, t1, ⟨R, t2⟩, t3⟩
    · omega
    · have hz : ∀ c ∈ ws ++ t, c ≠ 0 := by
        intro c hc
        rcases List.mem_append.mp hc with hc | hc
        · exact (L.space_ok c (c3 c hc)).2.2.2.2.2
        · exact subject_nonzero L.point_ok.2.2.2.2.2 t1 c hc
      have hp : ws ++ t <+: s ++ 0 :: post := ⟨R, by rw [c2, ← t2, List.append_assoc]⟩
      have := (prefix_before hp (fun h => hz 0 h rfl)).length_le
      rw [List.length_append] at this
      omega

theorem localText_no_dot {p : Nat} (hp : p ≠ '.'.toNat) (n : Numeral) : '.'.toNat ∉ n.localText p := by
  have hd : ∀ d : Fin 10, digitChar d ≠ '.'.toNat := by decide
  have hs : ∀ s : Option Bool, '.'.toNat ∉ signText s := by rintro (_ | _ | _) <;> decide
  intro hc
  unfold Numeral.localText at hc
  rcases List.mem_append.mp hc with hc | hc
  · rcases List.mem_append.mp hc with hc | hc
    · exact hs _ hc
    · rcases List.mem_append.mp hc with hc | hc
      · obtain ⟨d, -, h⟩ := List.mem_map.mp hc
        exact hd d h
      · split at hc
        · simp at hc
        · rcases List.mem_cons.mp hc with h | hc
          · exact hp h.symm
          · obtain ⟨d, -, h⟩ := List.mem_map.mp hc
            exact hd d h
  · unfold Numeral.expText at hc
    split at hc
    · simp at hc
    · unfold ExpPart.text at hc
      rcases List.mem_cons.mp hc with h | hc
      · split_ifs at h <;> exact absurd h (by decide)
      · rcases List.mem_append.mp hc with hc | hc
        · exact hs _ hc
        · obtain ⟨d, -, h⟩ := List.mem_map.mp hc
          exact hd d h

theorem localText_digit {p : Nat} {n : Numeral} (hv : n.Valid) : ∃ d : Fin 10, digitChar d ∈ n.localText p := by
  obtain ⟨d, hd⟩ := List.exists_mem_of_ne_nil _ hv.1
  refine ⟨d, ?_⟩
  unfold Numeral.localText
  rcases List.mem_append.mp hd with h | h
  · simp only [List.mem_append, List.mem_map]
    exact Or.inl (Or.inr (Or.inl ⟨d, h, rfl⟩))
  · unfold Numeral.fracDigits at h
    rcases hF : n.frac with _ | F
    · rw [hF] at h; simp at h
    · rw [hF] at h
      simp only [List.mem_append, List.mem_map, List.mem_cons]
      exact Or.inl (Or.inr (Or.inr (Or.inr ⟨d, h, rfl⟩)))

theorem overflowThreshold_pos (T : FloatType) : 0 < overflowThreshold T := by
  unfold overflowThreshold
  rw [sub_pos]
  refine zpow_lt_zpow_right₀ (by norm_num) ?_
  cases T <;> decide

/-- Exchange of `.` and the decimal point. -/
def swapDot (p c : Nat) : Nat := if c = '.'.toNat then p else if c = p then '.'.toNat else c

theorem swapDot_inj (p : Nat) : Function.Injective (swapDot p) := by
  intro a b h
  unfold swapDot at h
  split_ifs at h <;> omega

theorem localText_eq_map {L : NumLocale} (n : Numeral) : n.localText L.point = n.text.map (swapDot L.point) := by
  obtain ⟨q1, q2, q3, q4, q5, -⟩ := L.point_ok
  generalize L.point = p at *
  have hfix : ∀ c, c ≠ '.'.toNat → c ≠ p → swapDot p c = c := fun c h1 h2 => by
    unfold swapDot; rw [if_neg h1, if_neg h2]
  have hd : ∀ ds : List (Fin 10), (ds.map digitChar).map (swapDot p) = ds.map digitChar := by
    intro ds
    rw [List.map_map]
    refine List.map_congr_left fun d _ => hfix _ ((by decide : ∀ d : Fin 10, digitChar d ≠ '.'.toNat) d) fun h => ?_
    exact q1 (h ▸ isDig_digitChar d)
  have hs : ∀ s : Option Bool, (signText s).map (swapDot p) = signText s := by
    rintro (_ | _ | _)
    · rfl
    · show [swapDot p _] = _
      rw [hfix _ (by decide) (Ne.symm q2)]; rfl
    · show [swapDot p _] = _
      rw [hfix _ (by decide) (Ne.symm q3)]; rfl
  have he : n.expText.map (swapDot p) = n.expText := by
    unfold Numeral.expText
    split
    · rfl
    · unfold ExpPart.text
      rw [List.map_cons, List.map_append, hs, hd]
      congr 1
      split_ifs
      · exact hfix _ (by decide) (Ne.symm q5)
      · exact hfix _ (by decide) (Ne.symm q4)
  unfold Numeral.localText Numeral.text Numeral.mantText
  rw [List.map_append, List.map_append, List.map_append, hs, hd, he]
  rcases n.frac with _ | F
  · rfl
  · dsimp only
    rw [List.map_cons, hd]
    congr 4

theorem localText_inj {L : NumLocale} {n n' : Numeral} (h : n.localText L.point = n'.localText L.point) : n = n' := by
  rw [localText_eq_map, localText_eq_map] at h
  exact numeral_text_inj _ _ ((List.map_injective_iff.mpr (swapDot_inj _)) h)

/-- **C71, another decimal point.** If the locale's decimal point is not `.`, and the text has a
point after its sign `s` and its digits `I`: whenever the fallback is asked, everything from the point
on is ignored - the value is the integer in front of it, correctly rounded, and the end pointer is at the point (if there are no
digits in front of it, the value is zero and nothing is consumed). -/
theorem C71_other_point (T : FloatType) (L : NumLocale) (hL : L.point ≠ '.'.toNat) (fb : Fallback) (hc : Conforming T L fb)
    (errno : Nat) (mem : List Nat) (str : Nat) (hn : Nul mem str) (r : AtofResult)
    (h : atof T fb errno mem str = .ok r) (hf : r.fellBack = true)
    (s : Option Bool) (I : List (Fin 10)) (R : List Nat) (hm : mem.drop str = (signText s ++ I.map digitChar) ++ '.'.toNat :: R) :
    (I = [] → r.value = 0 ∧ r.strEnd = str) ∧
    (I ≠ [] → r.strEnd = str + (signText s ++ I.map digitChar).length ∧
      (digitsVal I ≠ 0 → (digitsVal I : ℚ) < overflowThreshold T →
        RoundsTo T (if s = some true then -(digitsVal I : ℚ) else digitsVal I) r.value) ∧
      (digitsVal I = 0 → value T r.value = 0)) := by
  obtain ⟨⟨k, k1, k2⟩, hr⟩ := asked_result h hf
  obtain ⟨n, R0, -, g2, g3⟩ := asked_number hn k1 k2
  obtain ⟨len, c1, ws, rest, c2, c3, -, c5⟩ := hc _ _ errno hn
  -- no white space
  have hws : ws = [] := by
    rcases ws with _ | ⟨c, ws⟩
    · rfl
    · exfalso
      obtain ⟨q1, q2, q3, q4, -, -⟩ := L.space_ok c (c3 c (by simp))
      rw [hm] at c2
      rcases s with _ | _ | _
      · rcases I with _ | ⟨d, I⟩
        · simp [signText] at c2; exact q4 c2.1.symm
        · simp [signText] at c2; exact q1 (c2.1 ▸ isDig_digitChar d)
      · simp [signText] at c2; exact q2 c2.1.symm
      · simp [signText] at c2; exact q3 c2.1.symm
  subst hws
  rw [List.nil_append] at c2
  subst c2
  have hsub : ∀ t, Subject L.point t → t <+: mem.drop str → (∃ n' : Numeral, n'.Valid ∧ t = n'.localText L.point) ∧
      t <+: signText s ++ I.map digitChar := by
    intro t ht hp
    have h1 : ∃ n' : Numeral, n'.Valid ∧ t = n'.localText L.point := by
      cases ht with
      | decimal n' h => exact ⟨n', h, rfl⟩
      | hexadecimal t h => rw [g2] at hp; exact (not_hex g3 h hp).elim
      | word s b w h => rw [g2] at hp; exact (not_word (mant_ne g3) h hp).elim
    refine ⟨h1, ?_⟩
    obtain ⟨n', -, rfl⟩ := h1
    rw [hm] at hp
    exact prefix_before hp (localText_no_dot hL n')
  let n0 : Numeral := ⟨s, I, none, none⟩
  have hn0 : n0.localText L.point = signText s ++ I.map digitChar := by
    simp [n0, Numeral.localText, Numeral.expText]
  constructor
  · intro hI
    subst hI
    have hno : ∀ t, Subject L.point t → ¬ t <+: mem.drop str := by
      intro t ht hp
      obtain ⟨⟨n', hv', rfl⟩, hp'⟩ := hsub t ht hp
      obtain ⟨d, hd⟩ := localText_digit (p := L.point) hv'
      have := hp'.subset hd
      have hds := digitChar_ne_sign d
      rcases s with _ | _ | _ <;> simp [signText] at this
      · exact hds.1 this
      · exact hds.2 this
    have : (fb mem str errno).value = 0 ∧ len = 0 := by
      generalize (fb mem str errno).value = v at c5 ⊢
      generalize (fb mem str errno).errno = e at c5
      cases c5 with
      | nothing => exact ⟨rfl, rfl⟩
      | number n v e' hv hs => exact (hno _ hs.form hs.here).elim
      | zero n hv hs => exact (hno _ hs.form hs.here).elim
      | overflow n hv hs => exact (hno _ hs.form hs.here).elim
      | hexadecimal t v e' h5 hs => exact (hno _ hs.form hs.here).elim
      | word s b w v h5 hs => exact (hno _ hs.form hs.here).elim
    rw [hr]
    exact ⟨this.1, by show (fb mem str errno).strEnd = _; rw [c1, this.2]; rfl⟩
  · intro hI
    have hv0 : n0.Valid := ⟨by simp [n0, Numeral.fracDigits, hI], by simp [n0]⟩
    have his : IsSubject L.point (n0.localText L.point) (mem.drop str) := by
      refine ⟨.decimal n0 hv0, by rw [hn0, hm]; exact List.prefix_append _ _, fun t ht hp => ?_⟩
      rw [hn0]
      exact (hsub t ht hp).2.length_le
    have hval : n0.value = if s = some true then -(digitsVal I : ℚ) else digitsVal I := by
      simp only [n0, Numeral.value, Numeral.absValue, Numeral.isNeg, Numeral.fracDigits, Numeral.expValue, beq_iff_eq]
      simp
    have uniq : ∀ n' : Numeral, IsSubject L.point (n'.localText L.point) (mem.drop str) → n' = n0 := by
      intro n' hs
      exact localText_inj (isSubject_unique hs his)
    have habs : |n0.value| = digitsVal I := by
      rw [hval]; split_ifs <;> simp
    have fin : len = (signText s ++ I.map digitChar).length ∧
        (digitsVal I ≠ 0 → (digitsVal I : ℚ) < overflowThreshold T → RoundsTo T n0.value (fb mem str errno).value) ∧
        (digitsVal I = 0 → value T (fb mem str errno).value = 0) := by
      generalize (fb mem str errno).value = v at c5 ⊢
      generalize (fb mem str errno).errno = e at c5
      cases c5 with
      | nothing _ h => exact (h _ his.form his.here).elim
      | number n' v e' hv hs h0 h1 =>
        obtain rfl := uniq n' hs
        refine ⟨by rw [hn0]; simp, fun _ _ => h1, fun hz => ?_⟩
        rw [hz] at habs
        exact absurd (abs_eq_zero.mp (by rw [habs]; simp)) h0
      | zero n' hv hs h0 =>
        obtain rfl := uniq n' hs
        refine ⟨by rw [hn0]; simp, fun hz => ?_, fun _ => ?_⟩
        · rw [h0, abs_zero] at habs
          exact absurd (by exact_mod_cast habs.symm) hz
        · rw [value_zero_iff]
          cases n0.isNeg <;> cases T <;> decide
      | overflow n' hv hs h0 =>
        obtain rfl := uniq n' hs
        rw [habs] at h0
        refine ⟨by rw [hn0]; simp, fun _ hx => absurd hx (not_lt.mpr h0), fun hz => ?_⟩
        rw [hz] at h0
        exact absurd h0 (not_le.mpr (by simpa using overflowThreshold_pos T))
      | hexadecimal t v e' h5 hs => exact (not_hex g3 h5 (by rw [← g2]; exact hs.here)).elim
      | word s b w v h5 hs => exact (not_word (mant_ne g3) h5 (by rw [← g2]; exact hs.here)).elim
    rw [hr]
    refine ⟨?_, ?_, fin.2.2⟩
    · show (fb mem str errno).strEnd = _
      rw [c1, fin.1]
    · rw [← hval]; exact fin.2.1

/-! ## What was printed -/

/-- What `atof` does with a fallback that leaves `errno` differently. -/
theorem atof_other_errno {T : FloatType} {fb fb' : Fallback} {errno : Nat} {mem : List Nat} {str : Nat} {r : AtofResult}
    (h1 : (fb' mem str errno).value = (fb mem str errno).value) (h2 : (fb' mem str errno).strEnd = (fb mem str errno).strEnd)
    (h : atof T fb' errno mem str = .ok r) :
    ∃ r', atof T fb errno mem str = .ok r' ∧ r'.value = r.value ∧ r'.strEnd = r.strEnd ∧ r'.fellBack = r.fellBack ∧
      (r.fellBack = false → r'.status = r.status) := by
  unfold atof at h ⊢
  obtain ⟨k, k1, k2⟩ := bindOk h
  rw [k1, ok_bind]
  by_cases c1 : k.strEnd ≠ str
  · rw [if_pos c1] at k2 ⊢
    cases c2 : k.isAccurate
    · rw [c2, if_neg (by simp)] at k2
      rw [if_neg (by simp)]
      have k2' := Except.ok.inj k2
      subst k2'
      exact ⟨_, rfl, h1.symm, h2.symm, rfl, fun h => by cases h⟩
    · rw [c2, if_pos rfl] at k2
      rw [if_pos rfl]
      have k2' := Except.ok.inj k2
      subst k2'
      exact ⟨_, rfl, rfl, rfl, rfl, fun _ => rfl⟩
  · rw [if_neg c1] at k2 ⊢
    have k2' := Except.ok.inj k2
    subst k2'
    exact ⟨_, rfl, rfl, rfl, rfl, fun _ => rfl⟩

/-- A conforming function reads what `ftoa` printed for `bits`. -/
theorem conforming_reads {T : FloatType} {L : NumLocale} (hL : L.point = '.'.toNat) {fb : Fallback} (hc : Conforming T L fb)
    {bits : Nat} (hf : IsFinite T bits) (h0 : value T bits ≠ 0) {n : Numeral} (hs : Prints T bits n.text) (errno : Nat)
    (pre rest : List Nat) :
    FallbackReads T (fun m i e => { fb m i e with errno := 0 }) errno (pre ++ (n.text ++ 0 :: rest)) pre.length n ∧
      (2 ^ (T.minExp - 1) ≤ |n.value| → (fb (pre ++ (n.text ++ 0 :: rest)) pre.length errno).errno = errno) := by
  obtain ⟨m, hv, m1, hid⟩ := C01_ftoa_identifies T bits hf h0
  obtain rfl : m = n := numeral_text_inj _ _ (prints_unique m1 hs)
  have hrt := (C01_reader T bits hf h0 m hs bits).mpr rfl
  have hm0 : m.value ≠ 0 := by
    intro hz
    rw [hz] at hid
    have hz0 : IsFinite T 0 := isFinite_of_lt (posInf_pos T)
    have hv0 : value T 0 = 0 := value_zero_iff.mpr (by simp [absPat])
    have := hid.2.2 0 hz0 (by rw [hv0]; exact h0.symm)
    rw [hv0] at this
    simp at this
    exact absurd this (not_lt.mpr (abs_nonneg _))
  have hnul : Nul (pre ++ (m.text ++ 0 :: rest)) pre.length := by
    rw [← List.append_assoc]; exact nul_str
  have hend : EndsAt m 0 := ⟨by decide, fun _ => ⟨by decide, by decide, fun h => absurd h (by decide)⟩, fun _ => by decide⟩
  obtain ⟨len, c1, c2⟩ := hc _ _ errno hnul
  rw [List.drop_left] at c2
  have ht : m.text ++ 0 :: rest = scanText m ++ (m.expText ++ 0 :: rest) := by
    rw [← List.append_assoc]; rfl
  rw [ht] at c2
  obtain ⟨n', e1, e2, e3, e4, e5⟩ := strtod_number hL (absValue_ne_zero_iff.mp hm0) c2
  rw [← ht] at e2
  obtain rfl : n' = m := numeral_text_inj _ _ (isSubject_unique e2 (isSubject_numeral hv hend hm0))
  rcases e5 with ⟨f1, f2⟩ | ⟨f1, -⟩
  · refine ⟨fun _ _ _ => ⟨?_, ?_, (by decide : (0 : Nat) ≠ ERANGE)⟩, fun hx => ?_⟩
    · rw [ht]; exact f1
    · rw [← e4]; exact c1
    · rw [ht]
      rcases f2 with f2 | f2
      · exact f2
      · exact absurd f2.2 (not_lt.mpr hx)
  · exact absurd hrt.2.1 (not_lt.mpr f1)

/-- **C71, round trip.** The text printed for a finite value other than zero, read with the C library's function as
fallback (decimal point `.`): the value comes back, but for the lost powers of two (C22); the end pointer is at
the terminator; the status is success if `errno` was not `ERANGE` and the decimal is not below the least normal number. -/
theorem C71_round_trip (T : FloatType) (L : NumLocale) (hL : L.point = '.'.toNat) (fb : Fallback) (hc : Conforming T L fb)
    (bits : Nat) (hf : IsFinite T bits) (h0 : value T bits ≠ 0) (n : Numeral) (hs : Prints T bits n.text) (errno : Nat)
    (pre rest : List Nat) :
    ∃ r, atof T fb errno (pre ++ (n.text ++ 0 :: rest)) pre.length = .ok r ∧ r.strEnd = pre.length + n.text.length ∧
      ((∀ j ∈ lostExponents T, |value T bits| ≠ 2 ^ j) → r.value = bits) ∧
      ((∃ j ∈ lostExponents T, |value T bits| = 2 ^ j) → IsFinite T r.value ∧ value T r.value = value T bits / 2) ∧
      (errno ≠ ERANGE → 2 ^ (T.minExp - 1) ≤ |n.value| → r.status = .success) := by
  obtain ⟨hr, he⟩ := conforming_reads hL hc hf h0 hs errno pre rest
  obtain ⟨r, r1, r2, r3, r4, r5⟩ := C22_round_trip T bits hf h0 n hs _ errno pre rest hr
  obtain ⟨r', q1, q2, q3, q4, q5⟩ := atof_other_errno (fb := fb) (fb' := fun m i e => { fb m i e with errno := 0 }) rfl rfl r1
  refine ⟨r', q1, by rw [q3, r2], by rw [q2]; exact r4, by rw [q2]; exact r5, fun h1 h2 => ?_⟩
  cases hfb : r.fellBack
  · rw [q5 hfb, r3]
  · rw [hfb] at q4
    obtain ⟨-, e⟩ := asked_result q1 q4
    rw [e]
    show checkErrno T _ _ = _
    unfold checkErrno
    rw [if_pos (by rw [he h2]; exact h1)]

/-- Loading with the C library's function as fallback is a cycle in the sense of C70. -/
theorem C71_cycle (T : FloatType) (L : NumLocale) (hL : L.point = '.'.toNat) (fb : Fallback) (hc : Conforming T L fb)
    (b : Nat) (s : List Nat) (hs : Prints T b s) (errno : Nat) (pre rest : List Nat) (r : AtofResult)
    (h : atof T fb errno (pre ++ (s ++ 0 :: rest)) pre.length = .ok r) : Cycle T b r.value := by
  obtain ⟨r', q1, q2, -⟩ := atof_other_errno (fb := fun m i e => { fb m i e with errno := 0 }) rfl rfl h
  refine ⟨s, pre, rest, _, errno, r', hs, fun hf h0 n hn => ?_, q1, q2⟩
  subst hn
  exact (conforming_reads hL hc hf h0 hs errno pre rest).1

/-! ## What fails -/

/-- "562949953421313.9375", half way between two `double` values. -/
def tieFrac : Numeral := ⟨none, [5,6,2,9,4,9,9,5,3,4,2,1,3,1,3], some [9,3,7,5], none⟩

theorem tieFrac_krosh : ∃ k, krosh .double (tieFrac.text ++ [0]) 0 = .ok k ∧ k.strEnd = 20 ∧ k.isAccurate = false := by
  have : ∃ k, krosh .double (tieFrac.text ++ [0]) 0 = .ok ⟨k, 20, .success, false⟩ := by
    refine ⟨0x4300000000000010, ?_⟩
    decide +kernel
  obtain ⟨k, h⟩ := this
  exact ⟨_, h, rfl, rfl⟩

theorem asked_of_krosh {T : FloatType} {fb : Fallback} {errno : Nat} {mem : List Nat} {str : Nat} {k : KroshResult}
    (h1 : krosh T mem str = .ok k) (h2 : k.strEnd ≠ str) (h3 : k.isAccurate = false) :
    ∃ r, atof T fb errno mem str = .ok r ∧ r.fellBack = true := by
  unfold atof
  rw [h1, ok_bind, if_pos h2, if_neg (by rw [h3]; simp)]
  exact ⟨_, rfl, rfl⟩

theorem value_next : value .double 0x4300000000000010 = 562949953421314 ∧ value .double 0x4300000000000008 = 562949953421313 := by
  have e1 : signBit .double 0x4300000000000010 = 0 ∧ signBit .double 0x4300000000000008 = 0 := by decide
  have e2 : expField .double 0x4300000000000010 = 1072 ∧ expField .double 0x4300000000000008 = 1072 := by decide
  have e3 : fracField .double 0x4300000000000010 = 16 ∧ fracField .double 0x4300000000000008 = 8 := by decide
  have e4 : emin .double = -1074 := by decide
  have e5 : (2 ^ (FloatType.double.p - 1) + 16 : Nat) = 4503599627370512 ∧ (2 ^ (FloatType.double.p - 1) + 8 : Nat) = 4503599627370504 := by decide
  constructor
  · rw [value, e1.1, if_neg (by decide), mag, e2.1, if_neg (by decide), e3.1, e4, e5.1]; norm_num
  · rw [value, e1.2, if_neg (by decide), mag, e2.2, if_neg (by decide), e3.2, e4, e5.2]; norm_num

theorem thr_big : (2 : ℚ) ^ 54 - 1 < overflowThreshold .double := by
  rw [overflowThreshold]
  have : (2 : ℚ) ^ (FloatType.double.maxExp) - 2 ^ (FloatType.double.maxExp - FloatType.double.p - 1) = 2 ^ (970 : Int) * (2 ^ 54 - 1) := by
    rw [show FloatType.double.maxExp - (FloatType.double.p : Int) - 1 = 970 by decide,
      show FloatType.double.maxExp = 970 + ((54 : Nat) : Int) by decide, zpow_add₀ (by norm_num), zpow_natCast]
    ring
  rw [this]
  have h1 : (1 : ℚ) < 2 ^ (970 : Int) := one_lt_zpow₀ (by norm_num) (by norm_num)
  calc (2 : ℚ) ^ 54 - 1 = 1 * (2 ^ 54 - 1) := by norm_num
    _ < _ := mul_lt_mul_of_pos_right h1 (by norm_num)

/-- **C71, the locale matters.** For "562949953421313.9375" the fallback is asked.  With the decimal point `.`
the result is off by 1/16 (it is half way between two values) and the text is consumed; where the decimal
point is a comma the result is 562949953421313, and the end pointer is at the point. -/
theorem C71_locale_refuted (fb fb' : Fallback) (hc : Conforming .double cNum fb) (hc' : Conforming .double commaNum fb') :
    (∃ r, atof .double fb 0 (tieFrac.text ++ [0]) 0 = .ok r ∧ |value .double r.value - 562949953421313.9375| ≤ 1 / 16 ∧ r.strEnd = 20) ∧
    (∃ r, atof .double fb' 0 (tieFrac.text ++ [0]) 0 = .ok r ∧ value .double r.value = 562949953421313 ∧ r.strEnd = 15) := by
  obtain ⟨k, k1, k2, k3⟩ := tieFrac_krosh
  have hnul : Nul (tieFrac.text ++ [0]) 0 := nul_le.mpr (Nat.zero_le _)
  have hval : tieFrac.value = 562949953421313.9375 := by
    simp [tieFrac, Numeral.value, Numeral.absValue, Numeral.isNeg, Numeral.fracDigits, Numeral.expValue, digitsVal]
    norm_num
  constructor
  · obtain ⟨r, r1, r2⟩ := asked_of_krosh (fb := fb) (errno := 0) k1 (by rw [k2]; decide) k3
    obtain ⟨n, n1, n2, n3, n4, n5, -⟩ := C71_asked .double cNum rfl fb hc 0 _ 0 hnul r r1 r2
    have hv : tieFrac.Valid := ⟨by decide, fun e h => by cases h⟩
    have hend : EndsAt tieFrac 0 := ⟨by decide, fun _ => ⟨by decide, by decide, fun h => absurd h (by decide)⟩, fun _ => by decide⟩
    rw [List.drop_zero] at n2
    obtain rfl : n = tieFrac := numeral_text_inj _ _ (isSubject_unique n2 (isSubject_numeral hv hend (by rw [hval]; norm_num)))
    have hlt : |tieFrac.value| < overflowThreshold .double := by
      rw [hval]
      exact lt_trans (by norm_num [abs_of_pos]) thr_big
    have hle := roundsTo_le (n5 hlt) (b' := 0x4300000000000010) ⟨by decide, by decide⟩
    rw [value_next.1, hval, abs_sub_comm] at hle
    refine ⟨r, r1, le_trans hle (by norm_num [abs_of_neg]), by rw [n4]; decide⟩
  · obtain ⟨r, r1, r2⟩ := asked_of_krosh (fb := fb') (errno := 0) k1 (by rw [k2]; decide) k3
    obtain ⟨-, h⟩ := C71_other_point .double commaNum (by decide) fb' hc' 0 _ 0 hnul r r1 r2 none tieFrac.int
      (chars "9375" ++ [0]) (by decide)
    obtain ⟨h1, h2, -⟩ := h (by decide)
    have hd : digitsVal tieFrac.int = 562949953421313 := by decide
    rw [hd] at h2
    have hlt : ((562949953421313 : Nat) : ℚ) < overflowThreshold .double := lt_trans (by norm_num) thr_big
    have hle := roundsTo_le (h2 (by decide) hlt) (b' := 0x4300000000000008) ⟨by decide, by decide⟩
    rw [value_next.2, if_neg (by simp)] at hle
    refine ⟨r, r1, ?_, by rw [h1]; decide⟩
    simp at hle
    linarith [sub_eq_zero.mp hle]

/-- "101739e-313", a number in the subnormal range. -/
def subTie : Numeral := ⟨none, [1,0,1,7,3,9], none, some ⟨false, some true, [3,1,3]⟩⟩

theorem subTie_range : 0 < subTie.value ∧ subTie.value < 2 ^ (-1022 : Int) ∧ 2 ^ (-1074 : Int) < subTie.value := by
  have hval : subTie.value = 101739 * 10 ^ (-313 : Int) := by
    simp [subTie, Numeral.value, Numeral.absValue, Numeral.isNeg, Numeral.fracDigits, Numeral.expValue, ExpPart.value, digitsVal]
  have hpos : 0 < subTie.value := by rw [hval]; positivity
  have hlt : subTie.value < 2 ^ (-1022 : Int) := by
    have h : 101739 * 2 ^ 1022 < 10 ^ 313 := by decide +kernel
    have h' : (101739 : ℚ) * 2 ^ 1022 < 10 ^ 313 := by exact_mod_cast h
    rw [hval, zpow_neg, zpow_neg, ← div_eq_mul_inv, ← one_div, div_lt_div_iff₀ (by positivity) (by positivity)]
    rw [one_mul]
    exact h'
  have hge : 2 ^ (-1074 : Int) < subTie.value := by
    have h : 10 ^ 313 < 101739 * 2 ^ 1074 := by decide +kernel
    have h' : (10 : ℚ) ^ 313 < 101739 * 2 ^ 1074 := by exact_mod_cast h
    rw [hval, zpow_neg, zpow_neg, ← div_eq_mul_inv, ← one_div, div_lt_div_iff₀ (by positivity) (by positivity)]
    rw [one_mul]
    exact h'
  exact ⟨hpos, hlt, hge⟩

theorem subTie_subject : subTie.Valid ∧ EndsAt subTie 0 :=
  ⟨⟨by decide, fun e h => by cases h; decide⟩, ⟨by decide, fun _ => ⟨by decide, by decide, fun h => absurd h (by decide)⟩, fun _ => by decide⟩⟩

theorem subTie_lt : |subTie.value| < overflowThreshold .double := by
  obtain ⟨hpos, hlt, -⟩ := subTie_range
  rw [abs_of_pos hpos]
  refine lt_trans hlt (lt_trans ?_ thr_big)
  exact lt_of_le_of_lt (zpow_le_one_of_nonpos₀ (by norm_num) (by norm_num)) (by norm_num)

/-- **C71, a tiny number reported as overflow.** ISO C allows `strtod` to set `errno` to `ERANGE` for
subnormal results (glibc does).  For "101739e-313" `atof` asks it, and then reports overflow. -/
theorem C71_underflow_as_overflow (fb : Fallback) (hc : Conforming .double cNum fb)
    (hE : (fb (subTie.text ++ [0]) 0 0).errno = ERANGE) :
    ∃ r, atof .double fb 0 (subTie.text ++ [0]) 0 = .ok r ∧ RoundsTo .double subTie.value r.value ∧ r.status = .overflow ∧
      0 < subTie.value ∧ subTie.value < 2 ^ (-1022 : Int) := by
  have hk : ∃ k, krosh .double (subTie.text ++ [0]) 0 = .ok k ∧ k.strEnd = 11 ∧ k.isAccurate = false := by
    have : ∃ v, krosh .double (subTie.text ++ [0]) 0 = .ok ⟨v, 11, .success, false⟩ := by
      refine ⟨2059220284923248, ?_⟩
      decide +kernel
    obtain ⟨k, h⟩ := this
    exact ⟨_, h, rfl, rfl⟩
  obtain ⟨k, k1, k2, k3⟩ := hk
  have hnul : Nul (subTie.text ++ [0]) 0 := nul_le.mpr (Nat.zero_le _)
  obtain ⟨hpos, hlt, hge⟩ := subTie_range
  obtain ⟨r, r1, r2⟩ := asked_of_krosh (fb := fb) (errno := 0) k1 (by rw [k2]; decide) k3
  obtain ⟨n, n1, n2, n3, n4, n5, -⟩ := C71_asked .double cNum rfl fb hc 0 _ 0 hnul r r1 r2
  obtain ⟨hv, hend⟩ := subTie_subject
  rw [List.drop_zero] at n2
  obtain rfl : n = subTie := numeral_text_inj _ _ (isSubject_unique n2 (isSubject_numeral hv hend hpos.ne'))
  have hrt : RoundsTo .double subTie.value r.value := n5 subTie_lt
  refine ⟨r, r1, hrt, ?_, hpos, hlt⟩
  have h1 : value .double 1 = 2 ^ (-1074 : Int) := by
    have e1 : signBit .double 1 = 0 ∧ expField .double 1 = 0 ∧ fracField .double 1 = 1 ∧ emin .double = -1074 := by decide
    rw [value, e1.1, if_neg (by decide), mag, e1.2.1, if_pos rfl, e1.2.2.1, e1.2.2.2]
    simp
  have hne : value .double r.value ≠ 0 := by
    intro h0
    have hle := roundsTo_le hrt (b' := 1) ⟨by decide, by decide⟩
    rw [h0, h1, sub_zero, abs_of_pos hpos, abs_of_pos (by linarith)] at hle
    have : (0 : ℚ) < 2 ^ (-1074 : Int) := by positivity
    linarith
  have hst := (C63_value_status .double fb 0 _ 0 r r1).2 r2
  rw [hst.2.2.2, hE, if_neg (by simp), if_pos (by rw [← hst.1]; exact hne)]

/-- There is a conforming function that sets `ERANGE` there. -/
theorem C71_underflow_hypotheses : ∃ fb, Conforming .double cNum fb ∧ (fb (subTie.text ++ [0]) 0 0).errno = ERANGE := by
  have H : ∀ (errno : Nat) (text : List Nat), ∃ v len errno', Strtod .double cNum errno text v len errno' ∧
      (text = subTie.text ++ [0] → errno' = ERANGE) := by
    intro errno text
    by_cases ht : text = subTie.text ++ [0]
    · subst ht
      obtain ⟨hpos, hlt, -⟩ := subTie_range
      obtain ⟨hv, hend⟩ := subTie_subject
      obtain ⟨b, hb, -⟩ := roundsTo_total subTie_lt
      refine ⟨b, _, ERANGE, ⟨[], _, rfl, by simp, ?_, .number subTie b ERANGE hv
        (isSubject_numeral (R := []) hv hend hpos.ne') hpos.ne' hb (Or.inr ⟨rfl, ?_⟩)⟩, fun _ => rfl⟩
      · intro c hc
        have : c = '1'.toNat := by
          rw [List.head?_cons] at hc
          exact (Option.some.inj hc).symm.trans (by decide)
        subst this
        show ¬ (_ ∨ _)
        decide
      · rw [abs_of_pos hpos]
        exact hlt
    · obtain ⟨v, len, e, h⟩ := strtod_exists .double cNum errno text
      exact ⟨v, len, e, h, fun h => absurd h ht⟩
  choose v len e h h' using H
  exact ⟨fun mem str errno => ⟨v errno (mem.drop str), str + len errno (mem.drop str), e errno (mem.drop str)⟩,
    fun mem str errno _ => ⟨_, rfl, h _ _⟩, h' _ _ rfl⟩

end Floaxie
