import Verif.Model.Ftoa
import Verif.Model.Atof

/-!
# Comparisons in the denormals-are-zero mode

Processors have a mode (x86: the DAZ bit of `MXCSR`, ARM: the FZ bit of `FPCR`; set by `-ffast-math` start-up code and
by audio and graphics libraries) in which floating point operations take subnormal operands as zeros.  The code has four
floating point operations on the value it prints or has read: the comparisons `v > 0`, `v == 0`, `v < 0` (twice) in
`ftoa` and the conversion of the fallback's result to `bool` in `check_errno`.  Everything else is done on bit patterns,
copies, or changes the sign only (which the mode does not affect).  `std::isnan` and `std::isinf` tell the same in either
mode.
-/

namespace Floaxie

open FloatType

/-- The operand of a floating point operation as the processor takes it: with `daz`, a subnormal number counts as the
zero of its sign. -/
def operand (daz : Bool) (T : FloatType) (bits : Nat) : Nat :=
  if daz = true ∧ T.absBits bits < 2 ^ (T.p - 1) then (if isNegative T bits then 2 ^ (T.W - 1) else 0) else bits

/-- `v == 0`, for `v` not NaN. -/
def eqZero (daz : Bool) (T : FloatType) (bits : Nat) : Bool := isZero T (operand daz T bits)

/-- `v < 0`, for `v` not NaN. -/
def ltZero (daz : Bool) (T : FloatType) (bits : Nat) : Bool :=
  isNegative T (operand daz T bits) && !isZero T (operand daz T bits)

/-- `v > 0`, for `v` not NaN. -/
def gtZero (daz : Bool) (T : FloatType) (bits : Nat) : Bool :=
  !isNegative T (operand daz T bits) && !isZero T (operand daz T bits)

/-- `ftoa(v, buffer)` (ftoa.h:88-141). -/
def ftoaF (daz : Bool) [FpEval] (T : FloatType) (bits : Nat) (buf : List Nat) : M (List Nat × Nat) :=
  if isNan T bits then do
    let buf ← wrStr buf 0 ['n'.toNat, 'a'.toNat, 'n'.toNat, 0]
    pure (buf, 3)
  else if isInf T bits then
    if gtZero daz T bits then do
      let buf ← wrStr buf 0 ['i'.toNat, 'n'.toNat, 'f'.toNat, 0]
      pure (buf, 3)
    else do
      let buf ← wrStr buf 0 ['-'.toNat, 'i'.toNat, 'n'.toNat, 'f'.toNat, 0]
      pure (buf, 4)
  else if eqZero daz T bits then do
    let buf ← wrStr buf 0 ['0'.toNat, 0]
    pure (buf, 1)
  else do
    let buf ← wr buf 0 '-'.toNat
    let o := if ltZero daz T bits then 1 else 0
    let (buf, len, K) ← grisu2 T bits buf o
    let (buf, n) ← prettify decimalScientificThreshold buf o len K
    pure (buf, (if ltZero daz T bits then 1 else 0) + n)

/-- `to_basic_string<FloatType, CharType>(v)` (ftoa.h:165-175). -/
def toBasicStringF (daz : Bool) [FpEval] (T : FloatType) (bits : Nat) : M (List Nat) := do
  let (buf, _) ← ftoaF daz T bits (List.replicate (maxBufferSize T) 0)
  pure (buf.takeWhile (· ≠ 0))

/-- `check_errno(returned_value)` (default_fallback.h:85-91). -/
def checkErrnoF (daz : Bool) (T : FloatType) (errno value : Nat) : Status :=
  if errno ≠ ERANGE then .success
  else if !eqZero daz T value then .overflow else .underflow

/-- `atof<FloatType>(str, str_end, fallback_func)` (atof.h:94-126). -/
def atofF (daz : Bool) [Locale] (T : FloatType) (fb : Fallback) (errno : Nat) (mem : List Nat) (str : Nat) :
    M AtofResult := do
  let cr ← krosh T mem str
  if cr.strEnd ≠ str then
    if cr.isAccurate then
      pure { value := cr.value, status := cr.status, strEnd := cr.strEnd,
             errno := errno, fellBack := false }
    else
      let r := fb mem str errno
      pure { value := r.value, status := checkErrnoF daz T r.errno r.value, strEnd := r.strEnd,
             errno := r.errno, fellBack := true }
  else
    pure { value := 0, status := .success, strEnd := cr.strEnd, errno := errno, fellBack := false }

end Floaxie
