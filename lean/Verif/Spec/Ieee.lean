import Mathlib.Algebra.Order.Field.Power
import Mathlib.Data.Rat.Cast.Order
import Mathlib.Algebra.Order.AbsoluteValue.Basic
import Verif.Spec.Types

/-!
# Specification: IEEE-754 values and rounding

Independent of the model.  A floating point datum is its bit pattern `b`
(a natural number below `2^W`); its numerical value is a rational number.
-/

namespace Floaxie.Spec

open FloatType

variable (T : FloatType)

/-- Sign bit (most significant bit). -/
def signBit (b : Nat) : Nat := b / 2 ^ (T.W - 1) % 2

/-- Biased exponent field. -/
def expField (b : Nat) : Nat := b / 2 ^ (T.p - 1) % 2 ^ (T.W - T.p)

/-- Trailing significand field. -/
def fracField (b : Nat) : Nat := b % 2 ^ (T.p - 1)

/-- All-ones exponent field: infinities and NaNs. -/
def expMax : Nat := 2 ^ (T.W - T.p) - 1

/-- `b` is the bit pattern of a finite datum. -/
def IsFinite (b : Nat) : Prop := b < 2 ^ T.W ∧ expField T b ≠ expMax T

/-- `b` is the bit pattern of a NaN. -/
def IsNaN (b : Nat) : Prop :=
  b < 2 ^ T.W ∧ expField T b = expMax T ∧ fracField T b ≠ 0

/-- `b` is the bit pattern of an infinity. -/
def IsInf (b : Nat) : Prop :=
  b < 2 ^ T.W ∧ expField T b = expMax T ∧ fracField T b = 0

/-- Exponent of the least positive (subnormal) datum: -149 / -1074. -/
def emin : Int := T.minExp - T.p

/-- Magnitude of a finite datum. -/
def mag (b : Nat) : ℚ :=
  if expField T b = 0 then (fracField T b : ℚ) * 2 ^ emin T
  else ((2 ^ (T.p - 1) + fracField T b : Nat) : ℚ) * 2 ^ (emin T + expField T b - 1)

/-- Numerical value of a finite datum. -/
def value (b : Nat) : ℚ := if signBit T b = 1 then -mag T b else mag T b

/-- First magnitude that rounds to infinity under round-to-nearest:
the largest finite value plus half a unit in its last place. -/
def overflowThreshold : ℚ := 2 ^ T.maxExp - 2 ^ (T.maxExp - T.p - 1)

/-- `x` is strictly closer to the finite datum `b` than to any other finite
value, and does not round to infinity.  Every correctly rounding reader (in any
round-to-nearest mode, whatever its tie rule) turns `x` into `b`. -/
def Identifies (x : ℚ) (b : Nat) : Prop :=
  IsFinite T b ∧ |x| < overflowThreshold T ∧
  ∀ b', IsFinite T b' → value T b' ≠ value T b → |x - value T b| < |x - value T b'|

/-- IEEE-754 round-to-nearest-even: the finite datum `b` is the result of
rounding the non-zero number `x`: right sign, not overflowing, nearest, and of
even significand if another value is equally near. -/
def RoundsTo (x : ℚ) (b : Nat) : Prop :=
  IsFinite T b ∧ |x| < overflowThreshold T ∧
  (signBit T b = 1 ↔ x < 0) ∧
  ∀ b', IsFinite T b' → value T b' ≠ value T b →
    |x - value T b| < |x - value T b'| ∨
    (|x - value T b| = |x - value T b'| ∧ fracField T b % 2 = 0)

/-- `x` lies exactly half way between the value of `b` and another finite value
(or the overflow threshold's neighbour), so that the tie rule is needed. -/
def IsTie (x : ℚ) : Prop :=
  ∃ b b', IsFinite T b ∧ IsFinite T b' ∧ value T b ≠ value T b' ∧
    |x - value T b| = |x - value T b'| ∧
    ∀ b'', IsFinite T b'' → |x - value T b| ≤ |x - value T b''|

/-- Positive infinity. -/
def posInf : Nat := expMax T * 2 ^ (T.p - 1)

/-- Flip the sign bit: IEEE negation. -/
def neg (b : Nat) : Nat := b ^^^ 2 ^ (T.W - 1)

end Floaxie.Spec
