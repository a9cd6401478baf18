import Verif.Spec.Ieee

/-!
# Specification: the rounding interval of a datum

Independent of the model.  All for magnitudes; `b % 2^(W-1)` clears the sign.
`mag` continues past the largest finite datum, so that the upper end of its
interval is the overflow threshold.
-/

namespace Floaxie.Spec

/-- Half way from the magnitude of `b` down to its lower neighbour. -/
def midBelow (T : FloatType) (b : Nat) : ℚ :=
  (mag T (b % 2 ^ (T.W - 1) - 1) + mag T (b % 2 ^ (T.W - 1))) / 2

/-- Half way from the magnitude of `b` up to its upper neighbour. -/
def midAbove (T : FloatType) (b : Nat) : ℚ :=
  (mag T (b % 2 ^ (T.W - 1)) + mag T (b % 2 ^ (T.W - 1) + 1)) / 2

/-- `b` is a normal number above the least one. -/
def AboveLeastNormal (T : FloatType) (b : Nat) : Prop :=
  IsFinite T b ∧ 2 ^ (T.p - 1) < b % 2 ^ (T.W - 1)

/-- The part of the rounding interval left out at either end where a number is
both read and printed: 1/47 (`float`), 1/383 (`double`) of its length. -/
def cutOff : FloatType → Nat
  | .float => 47
  | .double => 383

/-- `y` lies in the rounding interval of `b`, not too near to its ends. -/
def WellInside (T : FloatType) (b : Nat) (y : ℚ) : Prop :=
  midBelow T b + (midAbove T b - midBelow T b) / cutOff T ≤ y ∧
  y ≤ midAbove T b - (midAbove T b - midBelow T b) / cutOff T

/-- The distance from the magnitude of `b` to its upper neighbour. -/
def stepAbove (T : FloatType) (b : Nat) : ℚ :=
  mag T (b % 2 ^ (T.W - 1) + 1) - mag T (b % 2 ^ (T.W - 1))

/-- The part of `stepAbove` by which the printer may miss the ends of the rounding
interval. -/
def margin : FloatType → Nat
  | .float => 63
  | .double => 511

/-- `y` lies in the rounding interval of `b`, not nearer to its ends than 1/63
(`float`) or 1/511 (`double`) of the distance to the upper neighbour. -/
def SafelyInside (T : FloatType) (b : Nat) (y : ℚ) : Prop :=
  midBelow T b + stepAbove T b / margin T ≤ y ∧ y ≤ midAbove T b - stepAbove T b / margin T

/-- Texts with more digits than this are always shortest, even those of subnormal
numbers. -/
def fewDigits : FloatType → Nat
  | .float => 5
  | .double => 10

/-- Decimals of so many digits are distinguished by the type:
`std::numeric_limits<T>::digits10`. -/
def decimalDigits : FloatType → Nat
  | .float => 6
  | .double => 15

end Floaxie.Spec
