import Verif.Model.Krosh

/-!
# Model of `atof.h` and `default_fallback.h`
-/

namespace Floaxie

open FloatType

/-- `ERANGE`. -/
def ERANGE : Nat := 34

/-- What a fallback conversion (by default `strtof`/`strtod`,
default_fallback.h:37-71) does: from the memory, the start of the string and the
current `errno` it produces a value, an end position and a new `errno`. -/
structure FallbackResult where
  value : Nat
  strEnd : Nat
  errno : Nat
  deriving DecidableEq, Repr

/-- The `fallback_func` argument of `atof`. -/
abbrev Fallback := List Nat → Nat → Nat → FallbackResult

/-- `check_errno(returned_value)` (default_fallback.h:85-91). -/
def checkErrno (T : FloatType) (errno value : Nat) : Status :=
  if errno ≠ ERANGE then .success
  else if !isZero T value then .overflow else .underflow

/-- Outcome of `atof`: `value_and_status`, the end position stored through
`str_end` (when that is not null), and `errno` after the call. -/
structure AtofResult where
  value : Nat
  status : Status
  strEnd : Nat
  errno : Nat
  /-- ghost: the fallback was called -/
  fellBack : Bool
  deriving DecidableEq, Repr

/-- `atof<FloatType>(str, str_end, fallback_func)` (atof.h:94-126). -/
def atof [Locale] (T : FloatType) (fb : Fallback) (errno : Nat) (mem : List Nat) (str : Nat) :
    M AtofResult := do
  let cr ← krosh T mem str
  if cr.strEnd ≠ str then
    if cr.isAccurate then
      pure { value := cr.value, status := cr.status, strEnd := cr.strEnd,
             errno := errno, fellBack := false }
    else
      let r := fb mem str errno
      pure { value := r.value, status := checkErrno T r.errno r.value, strEnd := r.strEnd,
             errno := r.errno, fellBack := true }
  else
    pure { value := 0, status := .success, strEnd := cr.strEnd, errno := errno, fellBack := false }

/-- `from_string<FloatType>(str, fallback_func)` (atof.h:173-176):
`str.c_str()` is the characters followed by NUL. -/
def fromString [Locale] (T : FloatType) (fb : Fallback) (errno : Nat) (s : List Nat) : M AtofResult :=
  atof T fb errno (s ++ [0]) 0

end Floaxie
