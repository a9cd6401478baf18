import Verif.Prop.ReadList
import Verif.Prop.Interop
import Verif.Prop.Spelling
import Verif.Prop.DefaultFallback

/-!
# A line of numbers and words from elsewhere, read correctly (C94)
-/

namespace Floaxie

open Spec FloatType

/-- What may stand between two separators: a numeral, or a word for NaN or infinity with an optional sign. -/
inductive Item where
  | num (n : Numeral)
  | word (s : Option Bool) (isNan : Bool) (w : List Nat)

/-- The characters of an item. -/
def Item.text : Item → List Nat
  | .num n => n.text
  | .word s _ w => signText s ++ w

/-- A zero without exponent part, a number of at most 19 (`float`: 9) significant digits in the range of the type that
does not round up to a power of two, or one of the documented words. -/
def Item.Plain (T : FloatType) : Item → Prop
  | .num n => NumeralAt (n.text ++ [0]) 0 n ∧
      ((∀ d ∈ n.int ++ n.fracDigits, d = 0) ∧ n.exp = none ∨
       ∃ (m : Nat) (k : Int), m < 10 ^ T.digits10 ∧ n.absValue = m * 10 ^ k ∧ (T = .float → -50 ≤ k) ∧
         2 ^ emin T ≤ n.absValue ∧ n.absValue < overflowThreshold T ∧ ¬ RoundsUpToPow2 T n.value)
  | .word _ isNan w => Word isNan w

/-- The datum `v` is what an item stands for: the number nearest to the numeral (the zero of its sign), a quiet NaN, an
infinity. -/
def Item.Means (T : FloatType) : Item → Nat → Prop
  | .num n, v => (n.value ≠ 0 → RoundsTo T n.value v) ∧
      (n.value = 0 → v = if n.sign = some true then 2 ^ (T.W - 1) else 0)
  | .word s isNan _, v => (isNan = true → IsQuietNaN T v) ∧ (isNan = false → IsInf T v) ∧
      signBit T v = if s = some true then 1 else 0

/-- A character that occurs neither in numbers nor in words: no letter, digit, underscore, point or parenthesis. -/
def PlainSeparator (c : Nat) : Prop :=
  ¬ NChar c ∧ c ≠ '.'.toNat ∧ c ≠ '('.toNat ∧ c ≠ ')'.toNat

theorem plain_separator {c : Nat} (h : PlainSeparator c) : Separator c := by
  obtain ⟨h1, h2, -, -⟩ := h
  refine ⟨fun h => h1 (.inl h), h2, ?_, ?_, ?_, ?_⟩ <;> rintro rfl <;> exact h1 (by unfold NChar; decide)

theorem separator_not_in_word {sep : Nat} (hsep : PlainSeparator sep) {b : Bool} {w : List Nat} (h : Word b w) : sep ∉ w := by
  obtain ⟨h1, -, h3, h4⟩ := hsep
  have low : ∀ c, ('a'.toNat ≤ lower c ∧ lower c ≤ 'z'.toNat) → NChar c := by
    intro c hc
    unfold lower at hc
    unfold NChar
    split_ifs at hc with hu
    · exact .inr (.inr (.inl hu))
    · exact .inr (.inl hc)
  have sp : ∀ {x : String} {t : List Nat}, Spells x t → (∀ c ∈ chars x, 'a'.toNat ≤ c ∧ c ≤ 'z'.toNat) → sep ∉ t := by
    intro x t ht hx hc
    refine h1 (low sep (hx _ ?_))
    rw [← show t.map lower = chars x from ht]
    exact List.mem_map.mpr ⟨sep, hc, rfl⟩
  cases h with
  | nan t h => exact sp h (by decide)
  | nanSeq t u h hu =>
    intro hc
    rcases List.mem_append.mp hc with hc | hc
    · exact sp h (by decide) hc
    · rcases List.mem_cons.mp hc with hc | hc
      · exact h3 hc
      · rcases List.mem_append.mp hc with hc | hc
        · exact h1 (hu _ hc)
        · exact h4 (by simpa using hc)
  | inf t h => exact sp h (by decide)
  | infinity t h => exact sp h (by decide)

/-- One item in front of a separator. -/
theorem read_item {T : FloatType} {sep : Nat} (hsep : PlainSeparator sep) {it : Item} (hit : it.Plain T) (fb : Fallback) (errno : Nat)
    (he : errno ≠ ERANGE) (pre R : List Nat) (h0 : 0 ∈ R)
    (hfb : ∀ n, it = .num n → NumeralAt (pre ++ (it.text ++ sep :: R)) pre.length n → n.absValue ≠ 0 →
      Nul (pre ++ (it.text ++ sep :: R)) pre.length →
      FallbackReads T fb errno (pre ++ (it.text ++ sep :: R)) pre.length n) :
    ∃ r, atof T fb errno (pre ++ (it.text ++ sep :: R)) pre.length = .ok r ∧ it.Means T r.value ∧ r.status = .success ∧
      r.strEnd = pre.length + it.text.length ∧ r.errno ≠ ERANGE := by
  have hn : Nul (pre ++ (it.text ++ sep :: R)) pre.length := by
    obtain ⟨i, hi, e⟩ := List.getElem_of_mem h0
    refine ⟨pre.length + (it.text.length + (1 + i)), by omega, ?_⟩
    rw [List.getElem?_append_right (by omega), List.getElem?_append_right (by omega)]
    rw [show pre.length + (it.text.length + (1 + i)) - pre.length - it.text.length = i + 1 by omega,
      List.getElem?_cons_succ, List.getElem?_eq_getElem hi, e]
  cases it with
  | num n =>
    obtain ⟨hat, hk⟩ := hit
    obtain ⟨s1, s2, s3, s4, -, -⟩ := plain_separator hsep
    have hat' : NumeralAt (pre ++ (n.text ++ sep :: R)) pre.length n :=
      ⟨hat.valid, ⟨sep, R, by rw [List.drop_left], s1, fun _ => ⟨s3, s4, fun c => absurd c s2⟩, fun _ => s2⟩,
        hat.mantLen, hat.expLen, hat.exp⟩
    rcases hk with ⟨z1, z2⟩ | ⟨m, k, k1, k2, k3, k4, k5, k6⟩
    · refine ⟨_, C34_zero T fb errno _ _ n hat' z1, ?_, rfl, ?_, he⟩
      · have hz : n.absValue = 0 := by unfold Numeral.absValue; rw [digitsVal_all_zero z1]; simp
        have hv : n.value = 0 := by unfold Numeral.value; rw [hz]; simp
        refine ⟨fun h => absurd hv h, fun _ => ?_⟩
        dsimp only
        have hneg : neg T 0 = 2 ^ (T.W - 1) := by cases T <;> decide
        rw [hneg]
      · have : n.expText = [] := by unfold Numeral.expText; rw [z2]
        rw [this]; simp [Item.text]
    · have hne : n.absValue ≠ 0 := by
        intro h; rw [h] at k4; exact absurd k4 (not_le.mpr (emin_pos T))
      have hfb' := hfb n rfl hat' hne hn
      have hne' : n.value ≠ 0 := by
        intro h; apply hne; rw [← abs_value_num, h, abs_zero]
      obtain ⟨r, r1, r2, r3, r4⟩ := C20_correctly_rounded_given_fallback T fb errno _ _ n hat' m k k1 k2 k3 k4 k5 hfb' k6
      refine ⟨r, r1, ⟨fun _ => r2, fun h => absurd h hne'⟩, r3, r4, ?_⟩
      obtain ⟨r', q1, q2⟩ := C20_short_correctly_rounded T fb errno _ _ n hat' m k k1 k2 k3 k4 k5
      have : r' = r := Except.ok.inj (q1.symm.trans r1)
      subst this
      rcases q2 with d | ⟨b, v, -, d, -⟩
      · rw [d.2.2.2.1]; exact (hfb' _ r1 d.1).2.2
      · rw [d]; exact he
  | word s b w =>
    have hw : LongestWord b w (w ++ sep :: R) :=
      ⟨hit, List.prefix_append _ _, fun _ _ hw' hp =>
        (prefix_before (a := w) (b := R) hp (separator_not_in_word hsep hw')).length_le⟩
    have hm : (pre ++ ((signText s ++ w) ++ sep :: R)).drop pre.length = signText s ++ (w ++ sep :: R) := by
      rw [List.drop_left, List.append_assoc]
    obtain ⟨v, v1, v2⟩ := C33_words T fb errno _ _ s b w _ hn hm hw
    exact ⟨_, v1, v2, rfl, by simp [Item.text]; omega, he⟩

/-- **C94, correctly rounded.** Numbers (plain ones: zero without exponent, or of at most 19 / 9 significant digits, in
range and not rounding up to a power of two) and words for NaN and infinity, in any spelling, one after another with a
separator after each, anywhere in memory: the loop that reads a number and goes on behind the character after its end
gives for every one of them the datum it stands for with status success - if `errno` is not `ERANGE` at the start and
the fallback, where it is asked, reads these numerals correctly. -/
theorem C94_items (T : FloatType) (sep : Nat) (hsep : PlainSeparator sep) (fb : Fallback) (rest : List Nat) :
    ∀ (its : List Item) (pre : List Nat) (errno : Nat), errno ≠ ERANGE → (∀ it ∈ its, it.Plain T) →
      (∀ (errno str : Nat) (n : Numeral), errno ≠ ERANGE → .num n ∈ its →
        NumeralAt (pre ++ (joined sep (its.map Item.text) ++ 0 :: rest)) str n → n.absValue ≠ 0 →
        Nul (pre ++ (joined sep (its.map Item.text) ++ 0 :: rest)) str →
        FallbackReads T fb errno (pre ++ (joined sep (its.map Item.text) ++ 0 :: rest)) str n) →
      ∃ rs, readAll T fb (pre ++ (joined sep (its.map Item.text) ++ 0 :: rest)) its.length errno pre.length = .ok rs ∧
        List.Forall₂ (fun it r => it.Means T r.1 ∧ r.2 = Status.success) its rs := by
  intro its
  induction its with
  | nil => intro pre errno _ _ _; exact ⟨[], rfl, .nil⟩
  | cons it its ih =>
    intro pre errno he h hfb
    have hj : joined sep ((it :: its).map Item.text) ++ 0 :: rest =
        it.text ++ sep :: (joined sep (its.map Item.text) ++ 0 :: rest) := by simp [joined]
    rw [hj] at hfb ⊢
    obtain ⟨r, r1, r2, r3, r4, r5⟩ := read_item hsep (h it (by simp)) fb errno he pre (joined sep (its.map Item.text) ++ 0 :: rest) (by simp)
      (fun n hn hat h0 hz => hfb errno _ n he (by rw [hn]; simp) hat h0 hz)
    have hm : pre ++ (it.text ++ sep :: (joined sep (its.map Item.text) ++ 0 :: rest)) =
        (pre ++ (it.text ++ [sep])) ++ (joined sep (its.map Item.text) ++ 0 :: rest) := by simp
    have hl : pre.length + it.text.length + 1 = (pre ++ (it.text ++ [sep])).length := by simp; omega
    obtain ⟨rs, q1, q2⟩ := ih (pre ++ (it.text ++ [sep])) r.errno r5 (fun i hi => h i (by simp [hi]))
      (fun errno str n he hn hat h0 hz => by
        rw [hm] at hfb
        exact hfb errno str n he (List.mem_cons_of_mem _ hn) hat h0 hz)
    refine ⟨(r.value, r.status) :: rs, ?_, .cons ⟨r2, r3⟩ q2⟩
    rw [List.length_cons, readAll, r1, ok_bind, r4, hl, hm, q1, ok_bind]
    rfl

/-- What a conforming C library does where `atof` asks it for a number in the normal range. -/
theorem conforming_normal {T : FloatType} {L : NumLocale} (hL : L.point = '.'.toNat) {fb : Fallback} (hc : Conforming T L fb)
    {errno : Nat} (he : errno ≠ ERANGE) {mem : List Nat} {str : Nat} (hn : Nul mem str) {n : Numeral} (h : NumeralAt mem str n)
    (h1 : 2 ^ (T.minExp - 1) ≤ n.absValue) (h2 : n.absValue < overflowThreshold T) : FallbackReads T fb errno mem str n := by
  intro r hr hf
  obtain ⟨n', e1, e2, e3, e4, e5, -, e7⟩ := C71_asked T L hL fb hc errno mem str hn r hr hf
  obtain ⟨c, R, hd, he'⟩ := h.text
  have hv0 : n.value ≠ 0 := by
    intro h0
    rw [← abs_value_num, h0, abs_zero] at h1
    exact absurd h1 (not_le.mpr (zpow_pos (by norm_num) _))
  rw [hd] at e2
  have := numeral_text_inj _ _ (isSubject_unique e2 (isSubject_numeral h.valid he' hv0))
  subst this
  rw [abs_value_num] at e5 e7
  obtain ⟨-, hr'⟩ := asked_result hr hf
  obtain ⟨e8, e9⟩ := e7 he h1 h2
  rw [hr'] at e4 e5 e9
  dsimp only at e4 e5 e9
  exact ⟨e5 h2, e4, by rw [e9]; exact he⟩

/-- **C94, with the C library.** The same with any fallback that does what ISO C demands of `strtod` (decimal point
`.`), for lists whose numbers are zero or in the normal range: nothing is asked of the fallback beyond the standard. -/
theorem C94_conforming (T : FloatType) (L : NumLocale) (hL : L.point = '.'.toNat) (fb : Fallback) (hc : Conforming T L fb)
    (sep : Nat) (hsep : PlainSeparator sep) (its : List Item) (pre rest : List Nat) (errno : Nat) (he : errno ≠ ERANGE)
    (h : ∀ it ∈ its, it.Plain T)
    (hnorm : ∀ n, .num n ∈ its → n.absValue ≠ 0 → 2 ^ (T.minExp - 1) ≤ n.absValue) :
    ∃ rs, readAll T fb (pre ++ (joined sep (its.map Item.text) ++ 0 :: rest)) its.length errno pre.length = .ok rs ∧
      List.Forall₂ (fun it r => it.Means T r.1 ∧ r.2 = Status.success) its rs := by
  refine C94_items T sep hsep fb rest its pre errno he h ?_
  intro errno str n he' hn hat h0 hz
  refine conforming_normal hL hc he' hz hat (hnorm n hn h0) ?_
  obtain ⟨-, ⟨z, -⟩ | ⟨m, k, -, -, -, -, h5, -⟩⟩ := h _ hn
  · exact absurd (by unfold Numeral.absValue; rw [digitsVal_all_zero z]; simp) h0
  · exact h5

/-- "-0.0" -/
def minusNought : Numeral := ⟨some true, [0], some [0], none⟩

/-- The conditions are met by "-0.25", "-0.0" and "+Infinity". -/
example : (Item.num aQuarterOff).Plain .double ∧ (Item.num minusNought).Plain .double ∧
    (Item.word (some false) false (chars "Infinity")).Plain .double ∧ PlainSeparator ','.toNat := by
  refine ⟨⟨numeralAt_cstr ⟨by decide, by intro e he; cases he⟩ (by decide) (by intro e he; cases he), .inr ⟨25, -2, ?_⟩⟩,
    ⟨numeralAt_cstr ⟨by decide, by intro e he; cases he⟩ (by decide) (by intro e he; cases he), .inl ⟨by decide, rfl⟩⟩,
    .infinity _ (by unfold Spells; decide), by unfold PlainSeparator NChar; decide⟩
  have hv : value .double 0xBFD0000000000000 = -1 / 4 := by decide +kernel
  have hn : aQuarterOff.value = -1 / 4 := by decide +kernel
  have ha : aQuarterOff.absValue = 1 / 4 := by decide +kernel
  refine ⟨by decide, ?_, by decide, ?_, ?_, ?_⟩
  · rw [ha]; norm_num
  · rw [ha]; decide +kernel
  · rw [ha]; decide +kernel
  · rintro ⟨b, j, b1, -, b3, b4⟩
    have hf : IsFinite .double 0xBFD0000000000000 := by unfold IsFinite; decide
    have hid := identifies_self hf (value_lt_threshold hf)
    rw [hv, ← hn] at hid
    have := identifies_roundsTo_unique hid (by rw [hv]; norm_num) b1
    rw [this, hv, ← hn] at b3
    exact absurd b3 b4.ne

end Floaxie
