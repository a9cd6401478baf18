import Verif.Model.DiyFp
import Verif.Model.Ftoa
import Verif.Spec.Text

/-!
# Model of `print.h` and of `diy_fp`'s stream output

The stream is in its initial state here (for others see `Model/Stream`); the locale
groups no digits.
-/

namespace Floaxie

open FloatType

/-- `std::bitset<N>(v).to_string()`: `N` characters, most significant bit first;
bits of `v` from `N` on are ignored. -/
def bitsetString (N v : Nat) : List Nat :=
  (List.range N).map fun i => if v.testBit (N - 1 - i) then '1'.toNat else '0'.toNat

/-- `s.insert(pos, 1, c)`; `none` when it throws (`pos` beyond the end). -/
def insertChar (s : List Nat) (pos c : Nat) : Option (List Nat) :=
  if pos ≤ s.length then some (s.take pos ++ c :: s.drop pos) else none

/-- `print_binary(double f)` (print.h:38-44). -/
def printBinaryDouble (bits : Nat) : Option (List Nat) := do
  let s := bitsetString 64 bits
  let s ← insertChar s 1 ' '.toNat
  insertChar s 13 ' '.toNat

/-- `print_binary(NumericType v)` (print.h:47-50) for an integer type of `N` ≤ 64
bits, signed or not: `v` is converted to `unsigned long long`, i.e. modulo 2^64. -/
def printBinaryInt (N : Nat) (v : Int) : List Nat := bitsetString N (v % 2 ^ 64).toNat

/-- `print_binary(NumericType v)` (print.h:47-50) for `float`: overload resolution
prefers the template to `print_binary(double)`, and the constructor of `bitset`
converts the value to `unsigned long long`, towards zero; `none` when that is
undefined (NaN, infinity, or truncated value outside `[0, 2^64)`). -/
def printBinaryFloat (bits : Nat) : Option (List Nat) :=
  if isNan .float bits || isInf .float bits then none
  else
    let v := DiyFp.ofFloat .float bits
    let t := if v.e ≥ 0 then v.f <<< v.e.toNat else v.f >>> (-v.e).toNat
    if (isNegative .float bits && t != 0) || decide (t ≥ 2 ^ 64) then none
    else some (bitsetString 32 t)

/-- `print_double_presentation(NumericType v)` (print.h:53-60), integer types. -/
def printDoublePresentation (v : Int) : Option (List Nat) := do
  let s := bitsetString 64 (v % 2 ^ 64).toNat
  let s ← insertChar s 1 ' '.toNat
  let s ← insertChar s 54 ' '.toNat
  insertChar s 56 ' '.toNat

/-- `operator<<(os, v)` for `diy_fp` (diy_fp.h:472-477): the characters written. -/
def DiyFp.stream (W : Nat) (v : DiyFp) : List Nat :=
  Spec.chars "(f = " ++ printBinaryInt W v.f ++ Spec.chars ", e = " ++
    Spec.chars (toString v.e) ++ [')'.toNat]

end Floaxie
