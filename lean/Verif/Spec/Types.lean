/-!
# The two supported floating point types

`FloatType` is the template parameter of every floaxie function.  Its numeric
characteristics are those of IEEE-754 binary32 / binary64, i.e. the
`std::numeric_limits` values used throughout `/repo/include/floaxie`.
-/

namespace Floaxie

/-- Template parameter `FloatType`.  `diy_fp_traits` (diy_fp.h:58-84) exists for
exactly these two types. -/
inductive FloatType where
  | float
  | double
  deriving DecidableEq, Repr

namespace FloatType

/-- `bit_size<FloatType>()` = `bit_size<mantissa_storage_type>()`
(diy_fp.h:58-84, 110; bit_ops.h:42-45). -/
def W : FloatType → Nat
  | float => 32
  | double => 64

/-- `std::numeric_limits<FloatType>::digits` (precision, hidden bit included). -/
def p : FloatType → Nat
  | float => 24
  | double => 53

/-- `std::numeric_limits<FloatType>::max_exponent`. -/
def maxExp : FloatType → Int
  | float => 128
  | double => 1024

/-- `std::numeric_limits<FloatType>::min_exponent`. -/
def minExp : FloatType → Int
  | float => -125
  | double => -1021

/-- `std::numeric_limits<mantissa_storage_type>::digits10`, also `decimal_q`
(krosh.h:37). -/
def digits10 : FloatType → Nat
  | float => 9
  | double => 19

end FloatType

/-- `enum class conversion_status` (conversion_status.h:25-31). -/
inductive Status where
  | success
  | underflow
  | overflow
  deriving DecidableEq, Repr

end Floaxie
