import Verif.Model.Base

/-!
# Model of `bit_ops.h` (and the part of `static_pow.h` used at run time)

Words are natural numbers; the word width `W` is a parameter.
-/

namespace Floaxie

/-- `raised_bit<NumericType>(power)` (bit_ops.h:60-64), with its assertion. -/
def raisedBit (W power : Nat) : M Nat :=
  if power < W then .ok (1 <<< power) else .error .assertFail

/-- `msb_value<FloatType>()` (bit_ops.h:78-83). -/
def msbValue (W : Nat) : Nat := 1 <<< (W - 1)

/-- `nth_bit(value, power)` (bit_ops.h:115-118).  Only used at compile-time
constants `power < W`, so the assertion of `raised_bit` is not modelled here. -/
def nthBit (value power : Nat) : Bool := (value &&& (1 <<< power)) != 0

/-- `highest_bit(value)` (bit_ops.h:132-135). -/
def highestBit (W value : Nat) : Bool := nthBit value (W - 1)

/-- `mask<NumericType>(n)` (bit_ops.h:145-149). -/
def mask (W n : Nat) : Nat := if n < W then 1 <<< n - 1 else 2 ^ W - 1

/-- `positive_part(value)` (bit_ops.h:160-163) on `int`. -/
def positivePart (v : Int) : Nat := (max 0 v).toNat

/-- `struct round_result` (bit_ops.h:166-174). -/
structure RoundResult where
  value : Bool
  isAccurate : Bool
  deriving DecidableEq, Repr

/-- `round_up(last_bits, round_to_power)` (bit_ops.h:195-207). -/
def roundUp (W lastBits roundToPower : Nat) : M RoundResult := do
  assertM (decide (roundToPower > 0))
  let roundBit ← raisedBit W (roundToPower - 1)
  let checkMask := mask W (roundToPower + 1) ^^^ roundBit
  pure {
    isAccurate := (lastBits &&& mask W roundToPower) != roundBit
    value := (lastBits &&& roundBit) != 0 && (lastBits &&& checkMask) != 0 }

/-- `seq_pow<T, 10, max_pow>(pow)` (static_pow.h:154-160): an array of
`max_pow + 1` powers of ten of the `W`-bit unsigned (or non-overflowing signed)
type; an index past the end is undefined behaviour (`std::array::operator[]`). -/
def seqPow (W maxPow pow : Nat) : M Nat :=
  if pow ≤ maxPow then .ok (10 ^ pow % 2 ^ W) else .error .badIndex

end Floaxie
