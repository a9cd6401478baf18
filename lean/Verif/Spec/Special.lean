import Verif.Spec.Text
import Verif.Spec.Ieee

/-!
# Specification: the words for NaN and infinity
-/

namespace Floaxie.Spec

/-- `b` is the bit pattern of a quiet NaN: the leading fraction bit is set
(IEEE 754-2008, 6.2.1). -/
def IsQuietNaN (T : FloatType) (b : Nat) : Prop := IsNaN T b ∧ 2 ^ (T.p - 2) ≤ fracField T b

/-- ASCII lower case. -/
def lower (c : Nat) : Nat := if 'A'.toNat ≤ c ∧ c ≤ 'Z'.toNat then c + 32 else c

/-- `t` is the word `w` (given in lower case) in any capitalisation. -/
def Spells (w : String) (t : List Nat) : Prop := t.map lower = chars w

/-- A character allowed between the parentheses of `nan(...)`: letters, digits
and the underscore. -/
def NChar (c : Nat) : Prop :=
  ('0'.toNat ≤ c ∧ c ≤ '9'.toNat) ∨ ('a'.toNat ≤ c ∧ c ≤ 'z'.toNat) ∨ ('A'.toNat ≤ c ∧ c ≤ 'Z'.toNat) ∨ c = '_'.toNat

/-- The documented words (atof.h:66-70): `nan`, `nan(chars)`, `inf`, `infinity`,
in any capitalisation; the flag tells NaN from infinity. -/
inductive Word : Bool → List Nat → Prop
  | nan (t : List Nat) : Spells "nan" t → Word true t
  | nanSeq (t u : List Nat) : Spells "nan" t → (∀ c ∈ u, NChar c) → Word true (t ++ '('.toNat :: (u ++ [')'.toNat]))
  | inf (t : List Nat) : Spells "inf" t → Word false t
  | infinity (t : List Nat) : Spells "infinity" t → Word false t

/-- `w` is the longest word at the start of `text`. -/
structure LongestWord (isNan : Bool) (w text : List Nat) : Prop where
  word : Word isNan w
  here : w <+: text
  longest : ∀ b w', Word b w' → w' <+: text → w'.length ≤ w.length

/-- `text` starts with no word. -/
def NoWord (text : List Nat) : Prop := ∀ b w, Word b w → ¬ w <+: text

/-- A letter a word can start with. -/
def WordLetter (c : Nat) : Prop := c = 'n'.toNat ∨ c = 'N'.toNat ∨ c = 'i'.toNat ∨ c = 'I'.toNat

/-- Text of an optional point. -/
def dotText : Bool → List Nat
  | false => []
  | true => ['.'.toNat]

/-- Text that starts neither with a digit sequence (with optional sign and
point) nor with a word.  `s` is its sign, if any, and `k` the number of leading
characters that look like the start of a number: the sign, and a point or the
first letter of a word. -/
inductive NoNumber : List Nat → Option Bool → Nat → Prop
  | bare (s : Option Bool) (dot : Bool) (c : Nat) (R : List Nat) :
      ¬ ('0'.toNat ≤ c ∧ c ≤ '9'.toNat) → (dot = false → c ≠ '.'.toNat ∧ ¬ WordLetter c) →
      (s = none → dot = false → c ≠ '-'.toNat ∧ c ≠ '+'.toNat) →
      NoNumber (signText s ++ (dotText dot ++ c :: R)) s ((signText s).length + (dotText dot).length)
  | half (s : Option Bool) (c : Nat) (R : List Nat) : WordLetter c → NoWord (c :: R) →
      NoNumber (signText s ++ c :: R) s ((signText s).length + 1)

/-- What a string can start with. -/
inductive InputShape : List Nat → Prop
  /-- sign, digits and point, then a character that is neither a digit nor a first point -/
  | number (n : Numeral) (c : Nat) (R : List Nat) : n.exp = none → n.int ++ n.fracDigits ≠ [] →
      (signText n.sign ++ n.mantText).length ≤ 2049 → ¬ ('0'.toNat ≤ c ∧ c ≤ '9'.toNat) → (c = '.'.toNat → n.frac ≠ none) →
      InputShape ((signText n.sign ++ n.mantText) ++ c :: R)
  /-- 2050 characters of sign, digits and point -/
  | long (n : Numeral) (R : List Nat) : n.exp = none → (signText n.sign ++ n.mantText).length = 2050 →
      InputShape ((signText n.sign ++ n.mantText) ++ R)
  /-- optional sign and a word -/
  | word (s : Option Bool) (isNan : Bool) (w text : List Nat) : LongestWord isNan w text → InputShape (signText s ++ text)
  /-- nothing usable -/
  | nothing (text : List Nat) (s : Option Bool) (k : Nat) : NoNumber text s k → InputShape text

end Floaxie.Spec
