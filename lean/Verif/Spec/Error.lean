import Verif.Spec.Input

/-!
# Specification: accuracy of the conversion of long numerals
-/

namespace Floaxie.Spec

open FloatType

/-- Relative backward error allowed: 25 / 2^32 for `float`, 17 / 2^64 for `double`. -/
def slack : FloatType → ℚ
  | .float => 25 / 2 ^ 32
  | .double => 17 / 2 ^ 64

/-- The positive number `x` is not just below a power of two (where a carry might be
lost, C21): every power of two is below it, or exceeds it by more than `2 / 2^p`
relatively. -/
def ClearOfPow2 (T : FloatType) (x : ℚ) : Prop :=
  ∀ j : Int, 2 ^ j ≤ x * (1 - slack T) ∨ x * (1 + 2 / 2 ^ T.p) < 2 ^ j

end Floaxie.Spec
