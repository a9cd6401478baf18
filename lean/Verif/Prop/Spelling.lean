import Verif.Prop.Atof
import Verif.Proof.Unique

/-!
# Sign, consumption, zeros and redundant spelling (C27, C28, C34, C36)
-/

namespace Floaxie

open Spec FloatType

/-- Number of characters `atof` consumes of a numeral: all of them, except that
the exponent part of a zero is not looked at. -/
def consumed (n : Numeral) : Nat :=
  if n.absValue = 0 then (signText n.sign ++ n.mantText).length else n.text.length

theorem same_abs {n n' : Numeral} (h : SameMagnitude n n') : n.absValue = n'.absValue := by
  obtain ⟨L, a, a', ⟨z, hl⟩, ⟨z', hr⟩, fl, fr, eq⟩ := alike_of_same h
  have key : ∀ (m : Numeral) (z a : Nat), allDigits m = List.replicate z 0 ++ (L ++ List.replicate a 0) → a ≤ m.fracDigits.length →
      m.absValue = digitsVal L * 10 ^ (m.expValue - (m.fracDigits.length - a : Nat)) := by
    intro m z a h1 h2
    unfold Numeral.absValue
    rw [show m.int ++ m.fracDigits = allDigits m from rfl, h1, digitsVal_append, digitsVal_replicate_zero, zero_mul, zero_add,
      digitsVal_append, digitsVal_replicate_zero, add_zero, List.length_replicate]
    push_cast
    rw [mul_assoc, ← zpow_natCast, ← zpow_add₀ (by norm_num)]
    congr 2; push_cast [h2]; ring
  rw [key n z a hl fl, key n' z' a' hr fr, eq, h.exp]

/-- Two spellings of the same magnitude: both are delegated to the fallback, or
both converted, to the same value up to sign and with the same status.  The sign
is respected, but may be dropped when the status is not success. -/
theorem atof_same (T : FloatType) (fb : Fallback) (errno errno' : Nat) (mem mem' : List Nat) (str str' : Nat) (n n' : Numeral)
    (h : NumeralAt mem str n) (h' : NumeralAt mem' str' n') (hs : SameMagnitude n n') :
    ∃ r r', atof T fb errno mem str = .ok r ∧ atof T fb errno' mem' str' = .ok r' ∧
      ((Delegated T fb errno mem str r ∧ Delegated T fb errno' mem' str' r') ∨
       ∃ vp vn st, (vn = neg T vp ∨ (st ≠ .success ∧ vn = vp)) ∧
         r = ⟨if n.isNeg then vn else vp, st, str + consumed n, errno, false⟩ ∧
         r' = ⟨if n'.isNeg then vn else vp, st, str' + consumed n', errno', false⟩) := by
  have ha := same_abs hs
  have hp := text_pos h.valid
  have hp' := text_pos h'.valid
  by_cases h0 : n.absValue = 0
  · have h0' : n'.absValue = 0 := by rw [← ha, h0]
    have key : ∀ {mem : List Nat} {str errno : Nat} {n : Numeral}, NumeralAt mem str n → n.absValue = 0 →
        atof T fb errno mem str = .ok ⟨if n.isNeg then neg T 0 else 0, .success, str + consumed n, errno, false⟩ := by
      intro mem str errno n h h0
      have hk := krosh_zero (T := T) h h0
      have hc : consumed n = (scanText n).length := by unfold consumed; rw [if_pos h0]; rfl
      have hpos : 0 < (scanText n).length := by
        have h1 := scanText_length n
        have h2 : 0 < (allDigits n).length := List.length_pos_iff.mpr h.valid.1
        omega
      rw [atof_of_krosh hk (by dsimp only; omega), if_pos rfl, hc, negBits_eq]
    refine ⟨_, _, key h h0, key h' h0', Or.inr ⟨0, neg T 0, .success, Or.inl rfl, rfl, rfl⟩⟩
  · have h0' : n'.absValue ≠ 0 := by rw [← ha]; exact h0
    have hc : consumed n = n.text.length := by unfold consumed; rw [if_neg h0]
    have hc' : consumed n' = n'.text.length := by unfold consumed; rw [if_neg h0']
    obtain ⟨w, K, w1, w2, k1, k2⟩ := krosh_same (T := T) h h' hs h0
    rcases kroshTail_total w1 w2 K with ⟨-, t⟩ | ⟨-, v, st, acc, tacc, t⟩
    · rw [t] at k1 k2
      refine ⟨_, _, atof_of_krosh k1 (by dsimp only; omega), atof_of_krosh k2 (by dsimp only; omega), Or.inr
        ⟨if K < T.powLo then 0 else posInf T, if K < T.powLo then 0 else posInf T, if K < T.powLo then .underflow else .overflow,
          Or.inr ⟨by split_ifs <;> simp, rfl⟩, ?_, ?_⟩⟩
      · rw [if_pos rfl, hc]; simp
      · rw [if_pos rfl, hc']; simp
    · rw [t] at k1 k2
      refine ⟨_, _, atof_of_krosh k1 (by dsimp only; omega), atof_of_krosh k2 (by dsimp only; omega), ?_⟩
      cases acc with
      | false => exact Or.inl ⟨delegated_of, delegated_of⟩
      | true =>
        refine Or.inr ⟨v, neg T v, st, Or.inl rfl, ?_, ?_⟩
        · rw [if_pos rfl, hc]; cases n.isNeg <;> rfl
        · rw [if_pos rfl, hc']; cases n'.isNeg <;> rfl

/-! ## C28 -/

/-- **C28.** `atof` consumes exactly the numeral, whatever its value and status
(the exponent part of a zero excepted, `consumed`), unless it delegates. -/
theorem C28_consumes (T : FloatType) (fb : Fallback) (errno : Nat) (mem : List Nat) (str : Nat) (n : Numeral)
    (h : NumeralAt mem str n) :
    ∃ r, atof T fb errno mem str = .ok r ∧
      (Delegated T fb errno mem str r ∨ (r.fellBack = false ∧ r.errno = errno ∧
        r.strEnd = str + if n.absValue = 0 then (signText n.sign ++ n.mantText).length else n.text.length)) := by
  obtain ⟨r, r', h1, -, h2⟩ := atof_same T fb errno errno mem mem str str n n h h ⟨rfl, rfl, rfl⟩
  refine ⟨r, h1, ?_⟩
  rcases h2 with ⟨h2, -⟩ | ⟨vp, vn, st, -, rfl, -⟩
  · exact Or.inl h2
  · exact Or.inr ⟨rfl, rfl, rfl⟩

/-- In particular every numeral without exponent part is consumed entirely. -/
theorem C28_consumes_plain (T : FloatType) (fb : Fallback) (errno : Nat) (mem : List Nat) (str : Nat) (n : Numeral)
    (h : NumeralAt mem str n) (hx : n.exp = none ∨ n.value ≠ 0) :
    ∃ r, atof T fb errno mem str = .ok r ∧
      (Delegated T fb errno mem str r ∨ (r.fellBack = false ∧ r.strEnd = str + n.text.length)) := by
  obtain ⟨r, h1, h2⟩ := C28_consumes T fb errno mem str n h
  refine ⟨r, h1, ?_⟩
  rcases h2 with h2 | ⟨h2, -, h3⟩
  · exact Or.inl h2
  · refine Or.inr ⟨h2, ?_⟩
    rw [h3]
    split_ifs with h0
    · rcases hx with hx | hx
      · simp [Numeral.text, Numeral.expText, hx]
      · exfalso; apply hx
        rw [← abs_eq_zero, abs_value_num, h0]
    · rfl

/-- The hypotheses are met by " 1.5e-3 " inside a longer text; 7 characters are consumed. -/
def onePointFive : Numeral := ⟨some true, [1], some [5], some ⟨true, some true, [0, 3]⟩⟩

theorem onePointFive_at : NumeralAt (chars "x=-1.5E-03, y") 2 onePointFive :=
  ⟨⟨by decide, by intro e he; cases he; decide⟩, ⟨','.toNat, chars " y", by decide, by decide, by decide, by decide⟩, by decide,
    by intro e he; cases he; decide, by intro e he; cases he; exact readable_of_lt (by decide)⟩

example (fb : Fallback) : ∃ r, atof .double fb 0 (chars "x=-1.5E-03, y") 2 = .ok r ∧
      (Delegated .double fb 0 (chars "x=-1.5E-03, y") 2 r ∨ (r.fellBack = false ∧ r.strEnd = 2 + onePointFive.text.length)) :=
  C28_consumes_plain .double fb 0 _ 2 onePointFive onePointFive_at (Or.inr (by
    norm_num [onePointFive, Numeral.value, Numeral.absValue, Numeral.isNeg, digitsVal, Numeral.fracDigits]; exact zpow_ne_zero _ (by norm_num)))

example (fb : Fallback) : atof .double fb 0 (chars "x=-1.5E-03, y") 2 = .ok ⟨0xBF589374BC6A7EFA, .success, 10, 0, false⟩ := by
  have : krosh .double (chars "x=-1.5E-03, y") 2 = .ok ⟨0xBF589374BC6A7EFA, 10, .success, true⟩ := by decide +kernel
  rw [atof_of_krosh this (by decide)]; rfl

/-! ## C34 -/

/-- **C34.** A numeral all of whose digits are zero: zero of its sign, status
success, no fallback; the end pointer is after sign, digits and point - the
exponent part, if any, is not consumed. -/
theorem C34_zero (T : FloatType) (fb : Fallback) (errno : Nat) (mem : List Nat) (str : Nat) (n : Numeral)
    (h : NumeralAt mem str n) (h0 : ∀ d ∈ n.int ++ n.fracDigits, d = 0) :
    atof T fb errno mem str = .ok ⟨if n.sign = some true then neg T 0 else 0, .success,
      str + (n.text.length - n.expText.length), errno, false⟩ := by
  have h0' : n.absValue = 0 := by unfold Numeral.absValue; rw [digitsVal_all_zero h0]; simp
  have hk := krosh_zero (T := T) h h0'
  have hpos : 0 < (scanText n).length := by
    have h1 := scanText_length n
    have h2 : 0 < (allDigits n).length := List.length_pos_iff.mpr h.valid.1
    omega
  rw [atof_of_krosh hk (by dsimp only; omega), if_pos rfl, negBits_eq]
  have hl : n.text.length - n.expText.length = (scanText n).length := by rw [scan_split]; simp
  rw [hl]
  congr 2
  unfold Numeral.isNeg
  cases n.sign with
  | none => rfl
  | some b => cases b <;> rfl

/-- "-0.00e5": negative zero, but the end pointer is before the `e`. -/
def minusZeroExp : Numeral := ⟨some true, [0], some [0, 0], some ⟨false, none, [5]⟩⟩

theorem C34_zero_exponent_not_consumed (fb : Fallback) :
    atof .double fb 0 (minusZeroExp.text ++ [0]) 0 = .ok ⟨2 ^ 63, .success, 5, 0, false⟩ ∧ minusZeroExp.text.length = 7 := by
  refine ⟨?_, by decide⟩
  have := C34_zero .double fb 0 (minusZeroExp.text ++ [0]) 0 minusZeroExp
    (numeralAt_cstr ⟨by decide, by intro e he; cases he; decide⟩ (by decide)
      (by intro e he; cases he; exact ⟨by decide, readable_of_lt (by decide)⟩)) (by decide)
  rw [this]; decide

/-! ## C27 -/

/-- The same numeral with an explicit sign. -/
def withSign (b : Bool) (n : Numeral) : Numeral := { n with sign := some b }

/-- **C27.** Putting a sign before an unsigned numeral: '+' changes nothing but
the end pointer, '-' negates a successful result; the fallback is consulted in
both cases or in neither.  (When the status is not success the '-' may be
ignored: see `C27_minus_lost`.) -/
theorem C27_sign (T : FloatType) (fb : Fallback) (errno : Nat) (mem mem' : List Nat) (str str' : Nat) (n : Numeral) (b : Bool)
    (hn : n.sign = none) (h : NumeralAt mem str n) (h' : NumeralAt mem' str' (withSign b n)) :
    ∃ r r', atof T fb errno mem str = .ok r ∧ atof T fb errno mem' str' = .ok r' ∧ r.fellBack = r'.fellBack ∧
      (r.fellBack = true → Delegated T fb errno mem str r ∧ Delegated T fb errno mem' str' r') ∧
      (r.fellBack = false → r'.status = r.status ∧ r'.strEnd - str' = r.strEnd - str + 1 ∧
        (b = false → r'.value = r.value) ∧
        (b = true → r'.value = neg T r.value ∨ (r.status ≠ .success ∧ r'.value = r.value))) := by
  obtain ⟨r, r', h1, h2, h3⟩ := atof_same T fb errno errno mem mem' str str' n (withSign b n) h h' ⟨rfl, rfl, rfl⟩
  refine ⟨r, r', h1, h2, ?_⟩
  have hneg : n.isNeg = false := by unfold Numeral.isNeg; rw [hn]; rfl
  have hneg' : (withSign b n).isNeg = b := by unfold Numeral.isNeg withSign; cases b <;> rfl
  have ht : (withSign b n).text.length = n.text.length + 1 := by
    unfold Numeral.text withSign Numeral.mantText Numeral.expText
    rw [hn]; cases b <;> simp [signText]
  have hm : (signText (withSign b n).sign ++ (withSign b n).mantText).length = (signText n.sign ++ n.mantText).length + 1 := by
    unfold withSign Numeral.mantText
    rw [hn]; cases b <;> simp [signText]
  have ha : (withSign b n).absValue = n.absValue := rfl
  have hcons : consumed (withSign b n) = consumed n + 1 := by
    unfold consumed; rw [ha]; split_ifs
    · exact hm
    · exact ht
  rcases h3 with ⟨d1, d2⟩ | ⟨vp, vn, st, hv, rfl, rfl⟩
  · exact ⟨d1.1.trans d2.1.symm, fun _ => ⟨d1, d2⟩, fun hf => by rw [d1.1] at hf; cases hf⟩
  · refine ⟨rfl, (fun hf => by cases hf), fun _ => ⟨rfl, ?_, ?_, ?_⟩⟩
    · dsimp only; rw [hcons]; omega
    · intro hb; dsimp only; rw [hneg, hneg', hb]
    · intro hb
      dsimp only; rw [hneg, hneg', hb]
      rcases hv with hv | ⟨hv1, hv2⟩
      · left; simpa using hv
      · right; exact ⟨hv1, by simpa using hv2⟩

example (fb : Fallback) : ∃ r r', atof .float fb 0 (chars "0.1\x00") 0 = .ok r ∧ atof .float fb 0 (chars "-0.1\x00") 0 = .ok r' ∧
    r.fellBack = r'.fellBack := by
  obtain ⟨r, r', h1, h2, h3, -⟩ := C27_sign .float fb 0 (chars "0.1\x00") (chars "-0.1\x00") 0 0 ⟨none, [0], some [1], none⟩ true rfl
    (numeralAt_cstr (n := ⟨none, [0], some [1], none⟩) ⟨by decide, by intro e he; cases he⟩ (by decide) (by intro e he; cases he))
    minusTenth_at
  exact ⟨r, r', h1, h2, h3⟩

/-- The '-' is lost when the decimal exponent is outside the table of powers of
ten: "-1e400" is read as plus infinity and "-1e-400" as plus zero. -/
theorem C27_minus_lost (fb : Fallback) :
    atof .double fb 0 (chars "-1e400\x00") 0 = .ok ⟨posInf .double, .overflow, 6, 0, false⟩ ∧
    atof .double fb 0 (chars "-1e-400\x00") 0 = .ok ⟨0, .underflow, 7, 0, false⟩ := by
  have h1 : krosh .double (chars "-1e400\x00") 0 = .ok ⟨posInf .double, 6, .overflow, true⟩ := by decide +kernel
  have h2 : krosh .double (chars "-1e-400\x00") 0 = .ok ⟨0, 7, .underflow, true⟩ := by decide +kernel
  constructor
  · rw [atof_of_krosh h1 (by decide)]; rfl
  · rw [atof_of_krosh h2 (by decide)]; rfl

/-! ## C36 -/

/-- **C36.** Redundant spelling - leading zeros, trailing zeros of the fraction,
a point without digits after it, '+', case of 'e', spelling of the exponent -
changes neither value nor status nor whether the fallback is asked. -/
theorem C36_spelling (T : FloatType) (fb : Fallback) (errno : Nat) (mem mem' : List Nat) (str str' : Nat) (n n' : Numeral)
    (h : NumeralAt mem str n) (h' : NumeralAt mem' str' n') (hs : SameMagnitude n n')
    (hsg : n.sign = some true ↔ n'.sign = some true) :
    ∃ r r', atof T fb errno mem str = .ok r ∧ atof T fb errno mem' str' = .ok r' ∧ r.fellBack = r'.fellBack ∧
      (r.fellBack = true → Delegated T fb errno mem str r ∧ Delegated T fb errno mem' str' r') ∧
      (r.fellBack = false → r'.value = r.value ∧ r'.status = r.status) := by
  obtain ⟨r, r', h1, h2, h3⟩ := atof_same T fb errno errno mem mem' str str' n n' h h' hs
  refine ⟨r, r', h1, h2, ?_⟩
  have hneg : n.isNeg = n'.isNeg := by
    unfold Numeral.isNeg
    rw [Bool.eq_iff_iff]; simpa using hsg
  rcases h3 with ⟨d1, d2⟩ | ⟨vp, vn, st, hv, rfl, rfl⟩
  · exact ⟨d1.1.trans d2.1.symm, fun _ => ⟨d1, d2⟩, fun hf => by rw [d1.1] at hf; cases hf⟩
  · refine ⟨rfl, (fun hf => by cases hf), fun _ => ⟨?_, rfl⟩⟩
    dsimp only; rw [hneg]

/-- "+00012.50e1" and "12.5E+01". -/
def oneTwentyFive' : Numeral := ⟨none, [1, 2], some [5], some ⟨true, some false, [0, 1]⟩⟩

example (fb : Fallback) : ∃ r r', atof .double fb 0 (oneTwentyFive.text ++ [0]) 0 = .ok r ∧
      atof .double fb 0 (oneTwentyFive'.text ++ [0]) 0 = .ok r' ∧ r.fellBack = r'.fellBack ∧
      (r.fellBack = true → Delegated .double fb 0 (oneTwentyFive.text ++ [0]) 0 r ∧ Delegated .double fb 0 (oneTwentyFive'.text ++ [0]) 0 r') ∧
      (r.fellBack = false → r'.value = r.value ∧ r'.status = r.status) :=
  C36_spelling .double fb 0 _ _ 0 0 oneTwentyFive oneTwentyFive' oneTwentyFive_at
    (numeralAt_cstr ⟨by decide, by intro e he; cases he; decide⟩ (by decide)
      (by intro e he; cases he; exact ⟨by decide, readable_of_lt (by decide)⟩))
    ⟨by decide, by decide, by decide⟩ (by decide)

end Floaxie
