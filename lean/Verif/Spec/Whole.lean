import Verif.Spec.Types

/-!
# Specification: whole numbers and binary rounding

In terms of natural numbers only.
-/

namespace Floaxie.Spec

/-- The whole number `M` lies exactly half way between two adjacent values of the
type: without its factors of two it has exactly `p + 1` bits. -/
def HalfWay (T : FloatType) (M : Nat) : Prop :=
  ∃ q i, M = (2 * q + 1) * 2 ^ i ∧ 2 ^ T.p ≤ 2 * q + 1 ∧ 2 * q + 1 < 2 ^ (T.p + 1)

/-- The whole number `M` is below a power of two that is nearer to it than any
other value of the type: it has more than `p` bits and the leading `p + 1` ones
are set. -/
def JustBelowPow2 (T : FloatType) (M : Nat) : Prop :=
  ∃ j, M < 2 ^ j ∧ (2 ^ j - M) * 2 ^ (T.p + 1) < 2 ^ j

/-- The whole number `M` has at most 19 (double) / 9 (float) digits, or is such
a number `m` followed by `k` zeros where `m * 5^k` is below `2^63 - 1` (double) /
`2^31 - 1` (float): for example `10^22`. -/
def ShortWhole (T : FloatType) (M : Nat) : Prop :=
  ∃ m k, 0 < m ∧ m < 10 ^ T.digits10 ∧ M = m * 10 ^ k ∧ (k = 0 ∨ m * 5 ^ k + 2 ≤ 2 ^ (T.W - 1))

end Floaxie.Spec
