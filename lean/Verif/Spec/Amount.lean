import Verif.Spec.Numeral
import Verif.Spec.Types

/-!
# Specification: amounts

Decimal numbers with few digits after the point, such as sums of money, and their
usual spelling.  Independent of the model.
-/

namespace Floaxie.Spec

/-- Digits after the point, of amounts that are certainly read without the help of
the fallback and printed as they were read. -/
def amountPlaces : FloatType → Nat
  | .float => 2
  | .double => 3

/-- The usual spelling of a decimal number, as in "12", "-0.5" or "1024.025": no '+',
at least one digit before the point and no superfluous zero there; no point without
digits after it and no superfluous zero there; no exponent. -/
structure UsualSpelling (n : Numeral) : Prop where
  sign : n.sign ≠ some false
  int : n.int ≠ []
  noLeadingZero : n.int = [0] ∨ n.int.head? ≠ some 0
  frac : n.frac ≠ some []
  noTrailingZero : n.fracDigits.getLast? ≠ some 0
  exp : n.exp = none

end Floaxie.Spec
