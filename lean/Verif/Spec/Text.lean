import Verif.Spec.Numeral
import Verif.Spec.Types

/-!
# Specification: C strings in a buffer, and the shape of printed numerals
-/

namespace Floaxie.Spec

/-- The C string held by a buffer: the characters before the first NUL. -/
def cstr (buf : List Nat) : List Nat := buf.takeWhile (· ≠ 0)

/-- Code units of a string literal. -/
def chars (s : String) : List Nat := s.toList.map Char.toNat

/-- Digits a numeral printed for the type may need: `max_digits10`. -/
def maxSigDigits : FloatType → Nat
  | .float => 9
  | .double => 17

/-- The documented output shape of `ftoa` (ftoa.h:61-74): optional '-', digits
with at most one point that has digits on both sides, no superfluous leading
zero, and in exponential form a single digit before the point, `e`, optional
'-', two or three digits (three only from 100 on). -/
structure PrintedShape (n : Numeral) : Prop where
  sign : n.sign ≠ some false
  int : n.int ≠ []
  noLeadingZero : n.int = [0] ∨ n.int.head? ≠ some 0
  frac : n.frac ≠ some []
  exp : ∀ e, n.exp = some e → e.upper = false ∧ e.sign ≠ some false ∧ n.int.length = 1 ∧
    (e.digits.length = 2 ∨ e.digits.length = 3 ∧ e.digits.head? ≠ some 0)

/-- The significant digits of a numeral are `ds`, the last one having weight
`10^k`: the digits written are `ds` padded with zeros on either side. -/
structure SignificantDigits (n : Numeral) (ds : List (Fin 10)) (k : Int) : Prop where
  nonempty : ds ≠ []
  first : ds.head? ≠ some 0
  last : ds.getLast? ≠ some 0
  digits : ∃ i j, n.int ++ n.fracDigits = List.replicate i 0 ++ ds ++ List.replicate j 0
  value : n.absValue = (digitsVal ds : ℚ) * 10 ^ k

end Floaxie.Spec
