import Verif.Model.BitOps

/-!
# Model of `prettify.h`
-/

namespace Floaxie

/-- `digits_lut` (prettify.h:49-60) as code units, generated verbatim. -/
def digitsLut : List Nat := [
  48, 48, 48, 49, 48, 50, 48, 51, 48, 52, 48, 53, 48, 54, 48, 55, 48, 56, 48, 57,
  49, 48, 49, 49, 49, 50, 49, 51, 49, 52, 49, 53, 49, 54, 49, 55, 49, 56, 49, 57,
  50, 48, 50, 49, 50, 50, 50, 51, 50, 52, 50, 53, 50, 54, 50, 55, 50, 56, 50, 57,
  51, 48, 51, 49, 51, 50, 51, 51, 51, 52, 51, 53, 51, 54, 51, 55, 51, 56, 51, 57,
  52, 48, 52, 49, 52, 50, 52, 51, 52, 52, 52, 53, 52, 54, 52, 55, 52, 56, 52, 57,
  53, 48, 53, 49, 53, 50, 53, 51, 53, 52, 53, 53, 53, 54, 53, 55, 53, 56, 53, 57,
  54, 48, 54, 49, 54, 50, 54, 51, 54, 52, 54, 53, 54, 54, 54, 55, 54, 56, 54, 57,
  55, 48, 55, 49, 55, 50, 55, 51, 55, 52, 55, 53, 55, 54, 55, 55, 55, 56, 55, 57,
  56, 48, 56, 49, 56, 50, 56, 51, 56, 52, 56, 53, 56, 54, 56, 55, 56, 56, 56, 57,
  57, 48, 57, 49, 57, 50, 57, 51, 57, 52, 57, 53, 57, 54, 57, 55, 57, 56, 57, 57
]

/-- `enum format` (prettify.h:41-46). -/
inductive Format where
  | decimal
  | scientific
  deriving DecidableEq, Repr

/-- `choose_format<threshold>(field_width)` (prettify.h:71-76). -/
def chooseFormat (threshold fieldWidth : Nat) : Format :=
  if fieldWidth > threshold then .scientific else .decimal

/-- `fill_exponent(K, buffer)` (prettify.h:88-102); `o` is the index of
`buffer`.  Returns the buffer and the number of characters written. -/
def fillExponent (K : Nat) (buf : List Nat) (o : Nat) : M (List Nat × Nat) := do
  let hundreds := (K / 100) % 256
  let K := K % 100
  let buf ← wr buf o ('0'.toNat + hundreds)
  let o := o + (if hundreds > 0 then 1 else 0)
  match digitsLut[K * 2]?, digitsLut[K * 2 + 1]? with
  | some d0, some d1 => do
    let buf ← wr buf o d0
    let buf ← wr buf (o + 1) d1
    let buf ← wr buf (o + 2) 0
    pure (buf, 2 + (if hundreds > 0 then 1 else 0))
  | _, _ => .error .badIndex

/-- `print_scientific(buffer, len, dot_pos)` (prettify.h:119-136). -/
def printScientific (buf : List Nat) (o len : Nat) (dotPos : Int) : M (List Nat × Nat) := do
  let K := dotPos - 1
  let (buf, o') ← (if len > 1 then do
      let buf ← memmove buf (o + 2) (o + 1) (len - 1)
      let buf ← wr buf (o + 1) '.'.toNat
      pure (buf, o + len)
    else pure (buf, o) : M (List Nat × Nat))
  let buf ← wr buf (o' + 1) 'e'.toNat
  let buf ← wr buf (o' + 2) '-'.toNat
  let o' := o' + (if K < 0 then 1 else 0)
  let (buf, n) ← fillExponent K.natAbs buf (o' + 2)
  pure (buf, len + (if len > 1 then 1 else 0) + 1 + (if K < 0 then 1 else 0) + n)

/-- `print_decimal(buffer, len, k)` (prettify.h:152-174).  The unsigned
difference `left_shift_dest - left_shift_src` is never negative (the two are
equal, differ by one, or the source is 0). -/
def printDecimal (buf : List Nat) (o len : Nat) (k : Int) : M (List Nat × Nat) := do
  let dotPos : Int := (len : Int) + k
  let actualDotPos : Nat := if dotPos > 0 then dotPos.toNat else 1
  let leftOffset : Nat := if dotPos > 0 then 0 else (2 - dotPos).toNat
  let rightOffset := positivePart k
  let leftShiftSrc := positivePart dotPos
  let leftShiftDest := if dotPos > 0 then leftShiftSrc + (if k < 0 then 1 else 0) else leftOffset
  let leftShiftLen := positivePart ((len : Int) - (leftShiftSrc : Int))
  let termPos := len + rightOffset + (leftShiftDest - leftShiftSrc)
  let buf ← memmove buf (o + leftShiftDest) (o + leftShiftSrc) leftShiftLen
  let buf ← memset buf o '0'.toNat leftOffset
  let buf ← memset buf (o + len) '0'.toNat rightOffset
  let buf ← wr buf (o + actualDotPos) '.'.toNat
  let buf ← wr buf (o + termPos) 0
  pure (buf, termPos)

/-- `prettify<decimal_scientific_threshold>(buffer, len, k)` (prettify.h:195-218).
`field_width` is the `int` maximum converted to `std::size_t`. -/
def prettify (threshold : Nat) (buf : List Nat) (o len : Nat) (k : Int) : M (List Nat × Nat) :=
  let dotPos : Int := (len : Int) + k
  let fieldWidth : Nat := ((max dotPos (-k)) % 2 ^ 64).toNat
  match chooseFormat threshold fieldWidth with
  | .decimal => printDecimal buf o len k
  | .scientific => printScientific buf o len dotPos

end Floaxie
