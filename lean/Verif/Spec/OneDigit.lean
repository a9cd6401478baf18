import Verif.Model.Base

/-!
# Numbers of one decimal digit (specification of C81 and C99)
-/

namespace Floaxie.Spec

open FloatType

/-- The pairs `(d, j)` for which the value nearest to `d * 10^j` is not printed
with that one digit. -/
def oneDigitLong : FloatType → List (Nat × Int)
  | .float => [(1, -22), (2, -22), (3, -23), (3, 10), (5, -23), (6, -23), (6, 10), (9, 9)]
  | .double => [(1, 23), (1, 126), (2, 23), (2, 126), (4, 23), (4, 126), (5, 22), (5, 125), (7, 22),
      (8, 23), (8, 126), (9, -265)]

/-- The pairs `(d, j)` for which the reader asks the fallback for `d * 10^j`. -/
def oneDigitAsked : FloatType → List (Nat × Int)
  | .float => [(3, 10), (6, 10), (9, 9)]
  | .double => [(1, 23), (1, 126), (2, 23), (2, 126), (4, 23), (4, 126), (5, 22), (5, 125), (5, 209), (7, 22),
      (8, 23), (8, 126), (9, -265)]

end Floaxie.Spec
