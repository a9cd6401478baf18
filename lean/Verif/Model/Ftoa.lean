import Verif.Model.Grisu
import Verif.Model.Prettify

/-!
# Model of `ftoa.h`

The value argument `v` is given by its bit pattern; `std::isnan`, `std::isinf`,
`v == 0`, `v < 0`, `v > 0` are the IEEE-754 predicates on bit patterns.
-/

namespace Floaxie

open FloatType

/-- Exponent and fraction bits of the datum (sign cleared). -/
def FloatType.absBits (T : FloatType) (bits : Nat) : Nat := bits % 2 ^ (T.W - 1)

/-- `std::isnan(v)`. -/
def isNan (T : FloatType) (bits : Nat) : Bool := decide (T.absBits bits > T.infBits)

/-- `std::isinf(v)`. -/
def isInf (T : FloatType) (bits : Nat) : Bool := decide (T.absBits bits = T.infBits)

/-- `v == 0` (true for both zeros). -/
def isZero (T : FloatType) (bits : Nat) : Bool := decide (T.absBits bits = 0)

/-- The sign bit is set; for `v` neither NaN nor zero this is `v < 0`. -/
def isNegative (T : FloatType) (bits : Nat) : Bool := decide (bits ≥ 2 ^ (T.W - 1))

/-- `max_buffer_size<ValueType>()` (ftoa.h:42-48). -/
def maxBufferSize (T : FloatType) : Nat := maxDigits T + 1 + 1 + 3 + 1

/-- Write a literal character sequence at `buffer[0..]`. -/
def wrStr (buf : List Nat) (o : Nat) : List Nat → M (List Nat)
  | [] => .ok buf
  | c :: cs => do
    let buf ← wr buf o c
    wrStr buf (o + 1) cs

/-- `decimal_scientific_threshold` (ftoa.h:134). -/
def decimalScientificThreshold : Nat := 16

/-- `ftoa(v, buffer)` (ftoa.h:88-141): the new buffer and the returned length. -/
def ftoa [FpEval] (T : FloatType) (bits : Nat) (buf : List Nat) : M (List Nat × Nat) :=
  if isNan T bits then do
    let buf ← wrStr buf 0 ['n'.toNat, 'a'.toNat, 'n'.toNat, 0]
    pure (buf, 3)
  else if isInf T bits then
    if !isNegative T bits then do
      let buf ← wrStr buf 0 ['i'.toNat, 'n'.toNat, 'f'.toNat, 0]
      pure (buf, 3)
    else do
      let buf ← wrStr buf 0 ['-'.toNat, 'i'.toNat, 'n'.toNat, 'f'.toNat, 0]
      pure (buf, 4)
  else if isZero T bits then do
    let buf ← wrStr buf 0 ['0'.toNat, 0]
    pure (buf, 1)
  else do
    let buf ← wr buf 0 '-'.toNat
    let o := if isNegative T bits then 1 else 0
    let (buf, len, K) ← grisu2 T bits buf o
    let (buf, n) ← prettify decimalScientificThreshold buf o len K
    pure (buf, (if isNegative T bits then 1 else 0) + n)

/-- `to_basic_string<FloatType, CharType>(v)` (ftoa.h:165-175): a zero-filled
buffer of `max_buffer_size` characters, `ftoa`, cut at the first NUL. -/
def toBasicString [FpEval] (T : FloatType) (bits : Nat) : M (List Nat) := do
  let (buf, _) ← ftoa T bits (List.replicate (maxBufferSize T) 0)
  pure (buf.takeWhile (· ≠ 0))

end Floaxie
