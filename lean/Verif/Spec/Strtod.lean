import Verif.Spec.Special

/-!
# Specification: the C library's `strtof`, `strtod`, `wcstof`, `wcstod`

What ISO C (C17, 7.22.1.3 and 7.29.4.1.1) demands of the functions that `atof` consults by
default.  Independent of the model.
-/

namespace Floaxie.Spec

open FloatType

/-- What `setlocale(LC_NUMERIC / LC_CTYPE)` can change for these functions: the
decimal point character, and which characters are white space. -/
structure NumLocale where
  point : Nat
  space : Nat → Prop
  /-- the decimal point is none of the other characters numbers are made of -/
  point_ok : ¬ ('0'.toNat ≤ point ∧ point ≤ '9'.toNat) ∧ point ≠ '+'.toNat ∧ point ≠ '-'.toNat ∧ point ≠ 'e'.toNat ∧ point ≠ 'E'.toNat ∧ point ≠ 0
  /-- neither is white space; NUL is not white space -/
  space_ok : ∀ c, space c → ¬ ('0'.toNat ≤ c ∧ c ≤ '9'.toNat) ∧ c ≠ '+'.toNat ∧ c ≠ '-'.toNat ∧ c ≠ '.'.toNat ∧ c ≠ point ∧ c ≠ 0

/-- Text of a decimal numeral with `point` as decimal point. -/
def Numeral.localText (point : Nat) (n : Numeral) : List Nat :=
  signText n.sign ++ (n.int.map digitChar ++
    (match n.frac with
     | none => []
     | some ds => point :: ds.map digitChar)) ++ n.expText

/-- A hexadecimal digit. -/
def HexDigit (c : Nat) : Prop :=
  ('0'.toNat ≤ c ∧ c ≤ '9'.toNat) ∨ ('a'.toNat ≤ c ∧ c ≤ 'f'.toNat) ∨ ('A'.toNat ≤ c ∧ c ≤ 'F'.toNat)

/-- Text of a hexadecimal numeral: sign, `0x`, hexadecimal digits with an optional
point, and an optional binary exponent. -/
inductive Hexadecimal (point : Nat) : List Nat → Prop
  | mk (s : Option Bool) (x : Nat) (i f e : List Nat) : (x = 'x'.toNat ∨ x = 'X'.toNat) → (∀ c ∈ i, HexDigit c) →
      (f = [] ∨ ∃ ds, f = point :: ds ∧ ∀ c ∈ ds, HexDigit c) → (i ≠ [] ∨ ∃ d ds, f = point :: d :: ds) →
      (e = [] ∨ ∃ (p : Nat) (t : Option Bool) (ds : List (Fin 10)), (p = 'p'.toNat ∨ p = 'P'.toNat) ∧ ds ≠ [] ∧
        e = p :: (signText t ++ ds.map digitChar)) →
      Hexadecimal point (signText s ++ '0'.toNat :: x :: (i ++ f ++ e))

/-- The expected forms of the subject sequence (7.22.1.3 paragraph 3). -/
inductive Subject (point : Nat) : List Nat → Prop
  | decimal (n : Numeral) : n.Valid → Subject point (n.localText point)
  | hexadecimal (t : List Nat) : Hexadecimal point t → Subject point t
  | word (s : Option Bool) (isNan : Bool) (w : List Nat) : Word isNan w → Subject point (signText s ++ w)

/-- `t` is the subject sequence of `rest`: the longest initial part of the expected form. -/
structure IsSubject (point : Nat) (t rest : List Nat) : Prop where
  form : Subject point t
  here : t <+: rest
  longest : ∀ t', Subject point t' → t' <+: rest → t'.length ≤ t.length

/-- `ERANGE`, the value of `errno` for range errors. -/
def erange : Nat := 34

/-- A call on the characters `ws ++ rest`, with `errno` before, may give `v`, move the end pointer by
`len` and leave `errno'`.  Conversions are correctly rounded, to nearest even, as Annex F recommends;
what is returned for hexadecimal numerals is left open, and on underflow `ERANGE` may or may not be set. -/
inductive StrtodCall (T : FloatType) (L : NumLocale) (errno : Nat) (ws rest : List Nat) : Nat → Nat → Nat → Prop
  | nothing (errno' : Nat) : (∀ t, Subject L.point t → ¬ t <+: rest) → (errno' = errno ∨ errno' ≠ erange) →
      StrtodCall T L errno ws rest 0 0 errno'
  | number (n : Numeral) (v errno' : Nat) : n.Valid → IsSubject L.point (n.localText L.point) rest → n.value ≠ 0 →
      RoundsTo T n.value v → (errno' = errno ∨ (errno' = erange ∧ |n.value| < 2 ^ (T.minExp - 1))) →
      StrtodCall T L errno ws rest v (ws.length + (n.localText L.point).length) errno'
  | zero (n : Numeral) : n.Valid → IsSubject L.point (n.localText L.point) rest → n.value = 0 →
      StrtodCall T L errno ws rest (if n.isNeg then 2 ^ (T.W - 1) else 0) (ws.length + (n.localText L.point).length) errno
  | overflow (n : Numeral) : n.Valid → IsSubject L.point (n.localText L.point) rest → overflowThreshold T ≤ |n.value| →
      StrtodCall T L errno ws rest ((if n.isNeg then 2 ^ (T.W - 1) else 0) + expMax T * 2 ^ (T.p - 1))
        (ws.length + (n.localText L.point).length) erange
  | hexadecimal (t : List Nat) (v errno' : Nat) : Hexadecimal L.point t → IsSubject L.point t rest →
      StrtodCall T L errno ws rest v (ws.length + t.length) errno'
  | word (s : Option Bool) (isNan : Bool) (w : List Nat) (v : Nat) : Word isNan w → IsSubject L.point (signText s ++ w) rest →
      (if isNan then IsNaN T v else IsInf T v ∧ (signBit T v = 1 ↔ s = some true)) →
      StrtodCall T L errno ws rest v (ws.length + (signText s ++ w).length) errno

/-- What a call on the text `text` may do: white space is skipped first. -/
def Strtod (T : FloatType) (L : NumLocale) (errno : Nat) (text : List Nat) (v len errno' : Nat) : Prop :=
  ∃ ws rest, text = ws ++ rest ∧ (∀ c ∈ ws, L.space c) ∧ (∀ c, rest.head? = some c → ¬ L.space c) ∧
    StrtodCall T L errno ws rest v len errno'

/-- The "C" locale. -/
def cNum : NumLocale where
  point := '.'.toNat
  space c := c = 32 ∨ (9 ≤ c ∧ c ≤ 13)
  point_ok := by decide
  space_ok := by
    intro c h
    refine ⟨?_, ?_, ?_, ?_, ?_, ?_⟩ <;> rcases h with rfl | h <;> first | decide | (simp; omega)

/-- A locale like the German one: the decimal point is a comma. -/
def commaNum : NumLocale where
  point := ','.toNat
  space c := c = 32 ∨ (9 ≤ c ∧ c ≤ 13)
  point_ok := by decide
  space_ok := by
    intro c h
    refine ⟨?_, ?_, ?_, ?_, ?_, ?_⟩ <;> rcases h with rfl | h <;> first | decide | (simp; omega)

end Floaxie.Spec
