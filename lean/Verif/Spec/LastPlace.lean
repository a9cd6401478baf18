import Mathlib.Data.Rat.Defs
import Mathlib.Algebra.Order.Field.Rat
import Mathlib.Algebra.Order.Field.Power

/-!
# Specification: the place of the last significant digit kept
-/

namespace Floaxie.Spec

/-- `10^K` is the place of the last of at most `κ` leading significant digits of
the positive number `x`: either `x` has at most `κ` significant digits and the last
one (not a zero) is at `10^K`, or `x` has more digits and the `κ`-th is at `10^K`.
For `κ = 19`: `LastPlace 19 1500 2`, `LastPlace 19 0.25 (-2)`. -/
def LastPlace (κ : Nat) (x : ℚ) (K : Int) : Prop :=
  ∃ P : Nat, 0 < P ∧ P < 10 ^ κ ∧
    ((x = P * 10 ^ K ∧ ¬ 10 ∣ P) ∨
     (10 ^ (κ - 1) ≤ P ∧ P * 10 ^ K < x ∧ x < (P + 1) * 10 ^ K))

end Floaxie.Spec
