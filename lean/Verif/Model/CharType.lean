import Verif.Model.Atof

/-!
# Model of the parser for every character type

The rest of the model has characters that are natural numbers.  `krosh.h` is a template over the
character type: `char` may be signed, `wchar_t` may be `short` or `int`, signed or unsigned.  Here a character
is an integer in the range of its type, the conversions of the C++ language (integral promotion, usual
arithmetic conversions, conversion to `unsigned char`) are spelled out, and `int` differences are checked
for overflow.  Functions that do not see a character are those of `Model/Krosh.lean`.
-/

namespace Floaxie

open FloatType

/-- A character type: width in bits and signedness. -/
structure CharKind where
  w : Nat
  signed : Bool
  deriving DecidableEq, Repr

namespace CharKind

/-- The widths of character types on the platforms considered. -/
def Valid (k : CharKind) : Prop := k.w = 8 ∨ k.w = 16 ∨ k.w = 32

/-- The values of the type. -/
def InRange (k : CharKind) (c : Int) : Prop :=
  if k.signed then -2 ^ (k.w - 1) ≤ c ∧ c < 2 ^ (k.w - 1) else 0 ≤ c ∧ c < 2 ^ k.w

/-- `a - b` on characters: both are promoted, to `int` if that can represent the values of the type, else
(unsigned, 32 bits) to `unsigned int`. -/
def sub (k : CharKind) (a b : Int) : M Int :=
  if !k.signed && k.w == 32 then pure ((a - b) % 2 ^ 32) else chkInt (a - b)

end CharKind

/-- Read `mem[i]`. -/
def rdC (mem : List Int) (i : Nat) : M Int :=
  match mem[i]? with
  | some c => .ok c
  | none => .error .oobRead

/-- A character literal; `'0'` etc. are characters of the basic character set. -/
def lit (c : Char) : Int := c.toNat

/-- `std::tolower` in the "C" locale. -/
def toLowerC (c : Int) : Int := if lit 'A' ≤ c ∧ c ≤ lit 'Z' then c + 32 else c

/-- The loop of `eat_nan` (krosh.h:74-78); `low` is `std::tolower` of the global locale. -/
def eatNanLoopC (low : Int → Int) (mem : List Int) : (fuel : Nat) → (cp : Nat) → M Nat
  | 0, _ => .error .noTermination
  | fuel + 1, cp => do
    let c ← rdC mem cp
    if (lit '0' ≤ c ∧ c ≤ lit '9') ∨ (lit 'a' ≤ low c ∧ low c ≤ lit 'z') ∨ c = lit '_' then
      eatNanLoopC low mem fuel (cp + 1)
    else pure cp

/-- `eat_nan(str)` (krosh.h:62-86). -/
def eatNanC (low : Int → Int) (mem : List Int) (str : Nat) : M Nat := do
  let c0 ← rdC mem str
  if c0 = lit 'a' ∨ c0 = lit 'A' then do
    let c1 ← rdC mem (str + 1)
    if c1 = lit 'n' ∨ c1 = lit 'N' then do
      let c2 ← rdC mem (str + 2)
      if c2 = lit '(' then do
        let cp ← eatNanLoopC low mem (mem.length + 1) (str + 3)
        let c ← rdC mem cp
        if c = lit ')' then pure (cp - str + 1) else pure 2
      else pure 2
    else pure 0
  else pure 0

/-- The suffix loop of `eat_inf` (krosh.h:114-118). -/
def eatInfLoopC (low : Int → Int) (mem : List Int) : (suffix : List Int) → (cp : Nat) → M (Option Nat)
  | [], cp => pure (some cp)
  | x :: xs, cp => do
    let c ← rdC mem cp
    if low c = x then eatInfLoopC low mem xs (cp + 1) else pure none

/-- `eat_inf(str)` (krosh.h:98-126). -/
def eatInfC (low : Int → Int) (mem : List Int) (str : Nat) : M Nat := do
  let c0 ← rdC mem str
  if c0 = lit 'n' ∨ c0 = lit 'N' then do
    let c1 ← rdC mem (str + 1)
    if c1 = lit 'f' ∨ c1 = lit 'F' then do
      let c2 ← rdC mem (str + 2)
      if c2 = lit 'i' ∨ c2 = lit 'I' then do
        match ← eatInfLoopC low mem [lit 'n', lit 'i', lit 't', lit 'y'] (str + 3) with
        | some cp => pure (cp - str)
        | none => pure 2
      else pure 2
    else pure 0
  else pure 0

/-- First loop of `extract_fraction_digits` (krosh.h:152-159): the difference is formed before the
comparisons, and converted to `unsigned char`. -/
def fractionDigitsC (k : CharKind) (mem : List Int) : (n : Nat) → (pos : Nat) → M (List Nat)
  | 0, _ => pure []
  | n + 1, pos => do
    let ch ← rdC mem pos
    let c ← k.sub ch (lit '0')
    if 0 ≤ c ∧ c ≤ 9 then do
      let ds ← fractionDigitsC k mem n (pos + 1)
      pure ((c % 256).toNat :: ds)
    else pure (List.replicate (n + 1) 0)

/-- `extract_fraction_digits<kappa>(str)` (krosh.h:144-167). -/
def extractFractionDigitsC (k : CharKind) (mem : List Int) (kappa pos : Nat) : M Nat := do
  let ds ← fractionDigitsC k mem kappa pos
  accumulate 32 kappa ds.reverse 0 0

/-- Second part of case `'1'`..`'9'` (krosh.h:291-308). -/
def pushDigitC (k : CharKind) (mem : List Int) (str kappa : Nat) (c : Int) (st : PState) : M PState :=
  if st.digits.length < kappa then do
    let d ← k.sub c (lit '0')
    pure { st with
      digits := st.digits ++ [(d % 256).toNat]
      fracCount := st.fracCount + (if st.dotSet then 1 else 0) }
  else do
    let st ← (if !st.fracCalculated then do
        let suffix := subSz (st.digits.length + st.zeroLen) kappa
        if suffix > str + st.pos then .error .oobRead
        else do
          let tail ← extractFractionDigitsC k mem fractionDecimalDigits (str + st.pos - suffix)
          pure { st with
            frac := convertNumerator fractionDecimalDigits fractionBinaryDigits tail % 256
            fracCalculated := true }
      else pure st : M PState)
    pure { st with powGain := st.powGain + (if st.dotSet then 0 else 1) }

/-- The `switch` of `parse_digits` (krosh.h:253-357). -/
def parseSwitchC (k : CharKind) (low : Int → Int) (T : FloatType) (mem : List Int) (str : Nat) (c : Int) (st : PState) :
    M PState :=
  if c = lit '0' then pure (stepZero st)
  else if lit '1' ≤ c ∧ c ≤ lit '9' then
    pushDigitC k mem str T.digits10 c (flushZeros T.digits10 st)
  else if c = lit '.' then
    pure { st with stop := st.dotSet, dotSet := true }
  else if c = lit 'n' ∨ c = lit 'N' then
    if st.pos = (if st.signSet then 1 else 0) then do
      let eaten ← eatNanC low mem (str + st.pos + 1)
      pure { st with
        pos := st.pos + (eaten + 1)
        special := if eaten ≠ 0 then .nan else st.special
        stop := true }
    else pure { st with stop := true }
  else if c = lit 'i' ∨ c = lit 'I' then
    if st.pos = (if st.signSet then 1 else 0) then do
      let eaten ← eatInfC low mem (str + st.pos + 1)
      pure { st with
        pos := st.pos + (eaten + 1)
        special := if eaten ≠ 0 then .inf else st.special
        stop := true }
    else pure { st with stop := true }
  else if (c = lit '-' ∨ c = lit '+') ∧ st.pos = 0 then do
    let d ← k.sub (lit '-') c
    pure { st with sign := decide (d ≠ 0), signSet := true }
  else pure { st with stop := true }

/-- One iteration of the loop (krosh.h:252-361). -/
def parseStepC (k : CharKind) (low : Int → Int) (T : FloatType) (mem : List Int) (str : Nat) (st : PState) : M PState := do
  let c ← rdC mem (str + st.pos)
  let st ← parseSwitchC k low T mem str c st
  pure { st with
    stop := st.stop || decide (st.pos > maximumOffset)
    pos := st.pos + 1 }

/-- The loop of `parse_digits` (krosh.h:250-362). -/
def parseLoopC (k : CharKind) (low : Int → Int) (T : FloatType) (mem : List Int) (str : Nat) :
    (fuel : Nat) → PState → M PState
  | 0, _ => .error .noTermination
  | fuel + 1, st =>
    if st.stop then pure st
    else do
      let st ← parseStepC k low T mem str st
      parseLoopC k low T mem str fuel st

/-- `parse_digits<FloatType>(str)` (krosh.h:231-372). -/
def parseDigitsC (k : CharKind) (low : Int → Int) (T : FloatType) (mem : List Int) (str : Nat) : M DigitParseResult := do
  let st ← parseLoopC k low T mem str (maximumOffset + 3) PState.init
  let value ← accumulate T.W T.digits10 st.digits.reverse 0 0
  pure {
    value := value
    strEnd := str + (st.pos - 1)
    K := toInt32 (subSz st.powGain st.fracCount)
    frac := st.frac
    special := st.special
    sign := st.sign }

/-- `parse_mantissa<FloatType>(str)` (krosh.h:413-454). -/
def parseMantissaC (k : CharKind) (low : Int → Int) (T : FloatType) (mem : List Int) (str : Nat) :
    M MantissaParseResult := do
  let dp ← parseDigitsC k low T mem str
  if dp.special = .no then do
    let w ← (if dp.value ≠ 0 then adjustMantissa T dp.value dp.frac
      else pure { f := dp.value, e := 0 } : M DiyFp)
    pure { value := w, K := dp.K, strEnd := dp.strEnd, special := dp.special, sign := dp.sign }
  else
    pure { value := { f := 0, e := 0 }, K := 0, strEnd := dp.strEnd,
           special := dp.special, sign := dp.sign }

/-- `parse_exponent(str)` (krosh.h:478-501). -/
def parseExponentC (k : CharKind) (low : Int → Int) (mem : List Int) (str : Nat) : M ExponentParseResult := do
  let c ← rdC mem str
  if c ≠ lit 'e' ∧ c ≠ lit 'E' then pure { value := 0, strEnd := str }
  else do
    let dp ← parseDigitsC k low .float mem (str + 1)
    let pw ← seqPow 32 exponentDecimalDigits ((dp.K % 2 ^ 64).toNat)
    let v := toInt32 (dp.value * pw)
    let v ← (if !dp.sign then chkInt (-v) else pure v : M Int)
    pure { value := v, strEnd := dp.strEnd }

/-- `krosh<FloatType>(str)` (krosh.h:540-618). -/
def kroshC (k : CharKind) (low : Int → Int) (T : FloatType) (mem : List Int) (str : Nat) : M KroshResult := do
  let mp ← parseMantissaC k low T mem str
  if mp.special = .no ∧ mp.value.f ≠ 0 then do
    let ep ← parseExponentC k low mem mp.strEnd
    let K ← chkInt (mp.K + ep.value)
    if K ≠ 0 ∧ ¬ (T.powLo ≤ K ∧ K ≤ T.powHi) then
      if ¬ (T.powLo ≤ K) then
        pure { value := 0, status := .underflow, strEnd := ep.strEnd, isAccurate := true }
      else
        pure { value := T.infBits, status := .overflow, strEnd := ep.strEnd, isAccurate := true }
    else do
      let w ← (if K ≠ 0 then do
          let c ← cachedPower T K
          pure (mp.value.mul T.W c)
        else pure mp.value : M DiyFp)
      let w ← w.normalize T.W
      let v ← w.downsample T
      pure { value := if !mp.sign then negBits T v.value else v.value
             strEnd := ep.strEnd, status := v.status, isAccurate := v.isAccurate }
  else
    let value := match mp.special with
      | .nan => T.qnanBits
      | .inf => T.infBits
      | .no => 0
    pure { value := if !mp.sign then negBits T value else value
           strEnd := mp.strEnd, status := .success, isAccurate := true }

/-- `atof<FloatType>(str, str_end, fallback_func)` (atof.h:94-126). -/
def atofC (k : CharKind) (low : Int → Int) (T : FloatType) (fb : List Int → Nat → Nat → FallbackResult) (errno : Nat)
    (mem : List Int) (str : Nat) : M AtofResult := do
  let cr ← kroshC k low T mem str
  if cr.strEnd ≠ str then
    if cr.isAccurate then
      pure { value := cr.value, status := cr.status, strEnd := cr.strEnd,
             errno := errno, fellBack := false }
    else
      let r := fb mem str errno
      pure { value := r.value, status := checkErrno T r.errno r.value, strEnd := r.strEnd,
             errno := r.errno, fellBack := true }
  else
    pure { value := 0, status := .success, strEnd := cr.strEnd, errno := errno, fellBack := false }

end Floaxie
