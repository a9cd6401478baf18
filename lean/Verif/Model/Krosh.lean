import Verif.Model.DiyFp
import Verif.Model.Ftoa

/-!
# Model of `krosh.h` and `fraction.h`

The input is the memory object `mem` the string lives in; a character pointer is
an index into it, and every read is checked.
-/

namespace Floaxie

open FloatType

/-- `std::tolower(c, std::locale())` in the default ("C") locale. -/
def toLower (c : Nat) : Nat := if 'A'.toNat ≤ c ∧ c ≤ 'Z'.toNat then c + 32 else c

/-- The part of the global locale (`std::locale()`) the parser looks at: its
`std::tolower` (krosh.h:76, 114).  A parameter of all functions below. -/
class Locale where
  lower : Nat → Nat

/-- The global locale of a program that has not set another one: the "C" locale.
Where no locale is mentioned, this one is meant. -/
instance cLocale : Locale := ⟨toLower⟩

/-- The `do ... while` loop of `eat_nan` (krosh.h:74-78): the position of the
first character at or after `cp` that is not an n-char. -/
def eatNanLoop [Locale] (mem : List Nat) : (fuel : Nat) → (cp : Nat) → M Nat
  | 0, _ => .error .noTermination
  | fuel + 1, cp => do
    let c ← rd mem cp
    if ('0'.toNat ≤ c ∧ c ≤ '9'.toNat) ∨
       ('a'.toNat ≤ Locale.lower c ∧ Locale.lower c ≤ 'z'.toNat) ∨ c = '_'.toNat then
      eatNanLoop mem fuel (cp + 1)
    else pure cp

/-- `eat_nan(str)` (krosh.h:62-86): number of characters eaten. -/
def eatNan [Locale] (mem : List Nat) (str : Nat) : M Nat := do
  let c0 ← rd mem str
  if c0 = 'a'.toNat ∨ c0 = 'A'.toNat then do
    let c1 ← rd mem (str + 1)
    if c1 = 'n'.toNat ∨ c1 = 'N'.toNat then do
      let c2 ← rd mem (str + 2)
      if c2 = '('.toNat then do
        let cp ← eatNanLoop mem (mem.length + 1) (str + 3)
        let c ← rd mem cp
        if c = ')'.toNat then pure (cp - str + 1) else pure 2
      else pure 2
    else pure 0
  else pure 0

/-- The suffix loop of `eat_inf` (krosh.h:114-118): returns the position reached
if all of `suffix` matched, `none` otherwise. -/
def eatInfLoop [Locale] (mem : List Nat) : (suffix : List Nat) → (cp : Nat) → M (Option Nat)
  | [], cp => pure (some cp)
  | x :: xs, cp => do
    let c ← rd mem cp
    if Locale.lower c = x then eatInfLoop mem xs (cp + 1) else pure none

/-- `eat_inf(str)` (krosh.h:98-126): number of characters eaten. -/
def eatInf [Locale] (mem : List Nat) (str : Nat) : M Nat := do
  let c0 ← rd mem str
  if c0 = 'n'.toNat ∨ c0 = 'N'.toNat then do
    let c1 ← rd mem (str + 1)
    if c1 = 'f'.toNat ∨ c1 = 'F'.toNat then do
      let c2 ← rd mem (str + 2)
      if c2 = 'i'.toNat ∨ c2 = 'I'.toNat then do
        match ← eatInfLoop mem ['n'.toNat, 'i'.toNat, 't'.toNat, 'y'.toNat] (str + 3) with
        | some cp => pure (cp - str)
        | none => pure 2
      else pure 2
    else pure 0
  else pure 0

/-- First loop of `extract_fraction_digits` (krosh.h:152-159): up to `n` leading
digits, the rest of the array stays 0. -/
def fractionDigits (mem : List Nat) : (n : Nat) → (pos : Nat) → M (List Nat)
  | 0, _ => pure []
  | n + 1, pos => do
    let c ← rd mem pos
    if '0'.toNat ≤ c ∧ c ≤ '9'.toNat then do
      let ds ← fractionDigits mem n (pos + 1)
      pure ((c - '0'.toNat) :: ds)
    else pure (List.replicate (n + 1) 0)

/-- `for (rit = rbegin ...) result += (*rit) * seq_pow<T, 10, maxPow>(pow++)`
(krosh.h:163-164, 364-366): `rev` is the digit list in reverse order. -/
def accumulate (W maxPow : Nat) : (rev : List Nat) → (pow acc : Nat) → M Nat
  | [], _, acc => pure acc
  | d :: ds, pow, acc => do
    let m ← seqPow W maxPow pow
    accumulate W maxPow ds (pow + 1) ((acc + d * m) % 2 ^ W)

/-- `extract_fraction_digits<kappa>(str)` (krosh.h:144-167); `unsigned int` is
32 bits wide. -/
def extractFractionDigits (mem : List Nat) (kappa pos : Nat) : M Nat := do
  let ds ← fractionDigits mem kappa pos
  accumulate 32 kappa ds.reverse 0 0

/-- `fraction_converter<T, dd, bd, i>::convert(x)` (fraction.h:61-122): `left`
is the number of non-terminal steps left, i.e. `bd - i`; the arithmetic never
leaves the `unsigned int` range. -/
def fractionConvert (dd bd : Nat) : (left x : Nat) → Nat
  | 0, x => if x ≥ 10 ^ dd / 2 ^ bd then 1 else 0
  | left + 1, x =>
    let frac := 10 ^ dd / 2 ^ (bd - (left + 1))
    let decision := if x ≥ frac then 1 else 0
    (decision <<< (left + 1)) ||| fractionConvert dd bd left (x - decision * frac)

/-- `convert_numerator<decimal_digits, binary_digits>(x)` (fraction.h:136-139). -/
def convertNumerator (dd bd x : Nat) : Nat := fractionConvert dd bd (bd - 1) x

/-- `fraction_binary_digits` (krosh.h:40). -/
def fractionBinaryDigits : Nat := 7
/-- `fraction_decimal_digits` (krosh.h:43). -/
def fractionDecimalDigits : Nat := 4
/-- `maximum_offset` (krosh.h:46). -/
def maximumOffset : Nat := 2048
/-- `exponent_decimal_digits` (krosh.h:49). -/
def exponentDecimalDigits : Nat := 3

/-- `enum class speciality` (krosh.h:170-178). -/
inductive Speciality where
  | no | nan | inf
  deriving DecidableEq, Repr

/-- Local variables of the loop of `parse_digits` (krosh.h:234-248). -/
structure PState where
  /-- `parsed_digits` -/
  digits : List Nat
  dotSet : Bool
  signSet : Bool
  fracCalculated : Bool
  powGain : Nat
  /-- `zero_substring_length` -/
  zeroLen : Nat
  /-- `fraction_digits_count` -/
  fracCount : Nat
  /-- `go_to_beach` -/
  stop : Bool
  pos : Nat
  /-- `ret.frac` -/
  frac : Nat
  /-- `ret.special` -/
  special : Speciality
  /-- `ret.sign` -/
  sign : Bool
  deriving DecidableEq, Repr

/-- Initial values (krosh.h:189, 234-248). -/
def PState.init : PState :=
  { digits := [], dotSet := false, signSet := false, fracCalculated := false,
    powGain := 0, zeroLen := 0, fracCount := 0, stop := false, pos := 0,
    frac := 0, special := .no, sign := true }

/-- Case `'0'` (krosh.h:255-261). -/
def stepZero (st : PState) : PState :=
  if !st.digits.isEmpty || st.dotSet then
    { st with zeroLen := st.zeroLen + 1, powGain := st.powGain + (if st.dotSet then 0 else 1) }
  else st

/-- First part of case `'1'`..`'9'` (krosh.h:272-289): flush pending zeros. -/
def flushZeros (kappa : Nat) (st : PState) : PState :=
  if st.zeroLen ≠ 0 ∧ st.digits.length < kappa then
    let spare := subSz kappa st.digits.length
    let nonEmpty := !st.digits.isEmpty
    let zeroCopy := if nonEmpty then min st.zeroLen spare else st.zeroLen
    let powReduced := if nonEmpty then min st.powGain spare else st.powGain
    { st with
      digits := if nonEmpty then st.digits ++ List.replicate zeroCopy 0 else st.digits
      fracCount := (st.fracCount + subSz zeroCopy powReduced) % 2 ^ 64
      zeroLen := subSz st.zeroLen zeroCopy
      powGain := subSz st.powGain powReduced }
  else st

/-- Second part of case `'1'`..`'9'` (krosh.h:291-308). -/
def pushDigit (mem : List Nat) (str kappa c : Nat) (st : PState) : M PState :=
  if st.digits.length < kappa then
    pure { st with
      digits := st.digits ++ [c - '0'.toNat]
      fracCount := st.fracCount + (if st.dotSet then 1 else 0) }
  else do
    let st ← (if !st.fracCalculated then do
        let suffix := subSz (st.digits.length + st.zeroLen) kappa
        if suffix > str + st.pos then .error .oobRead
        else do
          let tail ← extractFractionDigits mem fractionDecimalDigits (str + st.pos - suffix)
          pure { st with
            frac := convertNumerator fractionDecimalDigits fractionBinaryDigits tail % 256
            fracCalculated := true }
      else pure st : M PState)
    pure { st with powGain := st.powGain + (if st.dotSet then 0 else 1) }

/-- The `switch` of `parse_digits` (krosh.h:253-357); `str` is the index of the
first character of the string. -/
def parseSwitch [Locale] (T : FloatType) (mem : List Nat) (str : Nat) (c : Nat) (st : PState) : M PState :=
  if c = '0'.toNat then pure (stepZero st)
  else if '1'.toNat ≤ c ∧ c ≤ '9'.toNat then
    pushDigit mem str T.digits10 c (flushZeros T.digits10 st)
  else if c = '.'.toNat then
    pure { st with stop := st.dotSet, dotSet := true }
  else if c = 'n'.toNat ∨ c = 'N'.toNat then
    if st.pos = (if st.signSet then 1 else 0) then do
      let eaten ← eatNan mem (str + st.pos + 1)
      pure { st with
        pos := st.pos + (eaten + 1)
        special := if eaten ≠ 0 then .nan else st.special
        stop := true }
    else pure { st with stop := true }
  else if c = 'i'.toNat ∨ c = 'I'.toNat then
    if st.pos = (if st.signSet then 1 else 0) then do
      let eaten ← eatInf mem (str + st.pos + 1)
      pure { st with
        pos := st.pos + (eaten + 1)
        special := if eaten ≠ 0 then .inf else st.special
        stop := true }
    else pure { st with stop := true }
  else if (c = '-'.toNat ∨ c = '+'.toNat) ∧ st.pos = 0 then
    pure { st with sign := decide ('-'.toNat ≠ c), signSet := true }
  else pure { st with stop := true }

/-- One iteration of the loop (krosh.h:252-361). -/
def parseStep [Locale] (T : FloatType) (mem : List Nat) (str : Nat) (st : PState) : M PState := do
  let c ← rd mem (str + st.pos)
  let st ← parseSwitch T mem str c st
  pure { st with
    stop := st.stop || decide (st.pos > maximumOffset)
    pos := st.pos + 1 }

/-- The loop `while (!go_to_beach)` (krosh.h:250-362), with an iteration budget. -/
def parseLoop [Locale] (T : FloatType) (mem : List Nat) (str : Nat) : (fuel : Nat) → PState → M PState
  | 0, _ => .error .noTermination
  | fuel + 1, st =>
    if st.stop then pure st
    else do
      let st ← parseStep T mem str st
      parseLoop T mem str fuel st

/-- `struct digit_parse_result` (krosh.h:186-210). -/
structure DigitParseResult where
  value : Nat
  K : Int
  strEnd : Nat
  frac : Nat
  special : Speciality
  sign : Bool
  deriving DecidableEq, Repr

/-- `parse_digits<FloatType>(str)` (krosh.h:231-372). -/
def parseDigits [Locale] (T : FloatType) (mem : List Nat) (str : Nat) : M DigitParseResult := do
  let st ← parseLoop T mem str (maximumOffset + 3) PState.init
  let value ← accumulate T.W T.digits10 st.digits.reverse 0 0
  pure {
    value := value
    strEnd := str + (st.pos - 1)
    K := toInt32 (subSz st.powGain st.fracCount)
    frac := st.frac
    special := st.special
    sign := st.sign }

/-- `struct mantissa_parse_result` (krosh.h:379-395). -/
structure MantissaParseResult where
  value : DiyFp
  K : Int
  strEnd : Nat
  special : Speciality
  sign : Bool
  deriving DecidableEq, Repr

/-- Body of `parse_mantissa` for a non-zero number (krosh.h:428-450). -/
def adjustMantissa (T : FloatType) (value frac : Nat) : M DiyFp := do
  let w ← DiyFp.normalize T.W { f := value, e := 0 }
  if frac ≠ 0 then do
    assertM (decide (w.e > -(fractionBinaryDigits : Int)))
    let lsbPow := ((fractionBinaryDigits : Int) + w.e).toNat
    let w : DiyFp := { f := w.f ||| (frac >>> lsbPow), e := w.e }
    let r ← roundUp 8 frac lsbPow
    if r.value then pure (w.inc T.W) else pure w
  else pure w

/-- `parse_mantissa<FloatType>(str)` (krosh.h:413-454).  `value` and `K` are
left uninitialised by the code for special values; they are not read then, and
the model stores zeros. -/
def parseMantissa [Locale] (T : FloatType) (mem : List Nat) (str : Nat) : M MantissaParseResult := do
  let dp ← parseDigits T mem str
  if dp.special = .no then do
    let w ← (if dp.value ≠ 0 then adjustMantissa T dp.value dp.frac
      else pure { f := dp.value, e := 0 } : M DiyFp)
    pure { value := w, K := dp.K, strEnd := dp.strEnd, special := dp.special, sign := dp.sign }
  else
    pure { value := { f := 0, e := 0 }, K := 0, strEnd := dp.strEnd,
           special := dp.special, sign := dp.sign }

/-- `struct exponent_parse_result` (krosh.h:460-467). -/
structure ExponentParseResult where
  value : Int
  strEnd : Nat
  deriving DecidableEq, Repr

/-- `parse_exponent(str)` (krosh.h:478-501).  `digit_parts.value` is a
`uint32_t`, `seq_pow<int, 10, 3>` an `int`: the product is computed modulo 2^32
and converted to `int`; a negative `digit_parts.K` becomes a huge index. -/
def parseExponent [Locale] (mem : List Nat) (str : Nat) : M ExponentParseResult := do
  let c ← rd mem str
  if c ≠ 'e'.toNat ∧ c ≠ 'E'.toNat then pure { value := 0, strEnd := str }
  else do
    let dp ← parseDigits .float mem (str + 1)
    let pw ← seqPow 32 exponentDecimalDigits ((dp.K % 2 ^ 64).toNat)
    let v := toInt32 (dp.value * pw)
    let v ← (if !dp.sign then chkInt (-v) else pure v : M Int)
    pure { value := v, strEnd := dp.strEnd }

/-- `struct krosh_result` (krosh.h:509-524). -/
structure KroshResult where
  value : Nat
  strEnd : Nat
  status : Status
  isAccurate : Bool
  deriving DecidableEq, Repr

/-- Unary minus on a floating point datum: flips the sign bit. -/
def negBits (T : FloatType) (bits : Nat) : Nat := bits ^^^ msbValue T.W

/-- `krosh<FloatType>(str)` (krosh.h:540-618). -/
def krosh [Locale] (T : FloatType) (mem : List Nat) (str : Nat) : M KroshResult := do
  let mp ← parseMantissa T mem str
  if mp.special = .no ∧ mp.value.f ≠ 0 then do
    let ep ← parseExponent mem mp.strEnd
    let K ← chkInt (mp.K + ep.value)
    if K ≠ 0 ∧ ¬ (T.powLo ≤ K ∧ K ≤ T.powHi) then
      -- early return: the sign is not applied (krosh.h:565-582)
      if ¬ (T.powLo ≤ K) then
        pure { value := 0, status := .underflow, strEnd := ep.strEnd, isAccurate := true }
      else
        pure { value := T.infBits, status := .overflow, strEnd := ep.strEnd, isAccurate := true }
    else do
      let w ← (if K ≠ 0 then do
          let c ← cachedPower T K
          pure (mp.value.mul T.W c)
        else pure mp.value : M DiyFp)
      let w ← w.normalize T.W
      let v ← w.downsample T
      pure { value := if !mp.sign then negBits T v.value else v.value
             strEnd := ep.strEnd, status := v.status, isAccurate := v.isAccurate }
  else
    let value := match mp.special with
      | .nan => T.qnanBits
      | .inf => T.infBits
      | .no => 0
    pure { value := if !mp.sign then negBits T value else value
           strEnd := mp.strEnd, status := .success, isAccurate := true }

end Floaxie
