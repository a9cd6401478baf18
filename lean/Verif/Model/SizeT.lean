import Verif.Model.Atof
import Verif.Model.Ftoa

/-!
# Model of the integer arithmetic, for any width of `std::size_t`

`Model/DiyFp.lean`, `Model/Grisu.lean`, `Model/Prettify.lean`, `Model/Krosh.lean` are about
platforms where `std::size_t` has 64 bits, and treat the binary and decimal exponents (`int`) as
integers without bound, except where an overflow can occur.  Here is the same code with a
`std::size_t` of `sz` bits, where

* every sum and difference of type `std::size_t` is reduced modulo `2^sz`, and every one of type
  `unsigned int` modulo `2^32`;
* every sum, difference and negation of type `int` is checked: a result outside the 32-bit range is
  undefined behaviour (`chkInt`);
* conversions from `int` to `std::size_t` (krosh.h:437, 491, diy_fp.h:226, 338, cached_power.h:42,
  prettify.h:205) and back (krosh.h:369, diy_fp.h:338, 510) go through these bits.

Counters that run up to a constant (`pow` at krosh.h:162, 364, at most 19) and the small unsigned
arithmetic of `fill_exponent` and `convert_numerator` are left as they are.
-/

namespace Floaxie

open FloatType

/-- `a + b` in `std::size_t` of `sz` bits. -/
def addW (sz a b : Nat) : Nat := (a + b) % 2 ^ sz

/-- `a - b` in `std::size_t` of `sz` bits. -/
def subW (sz a b : Nat) : Nat := (a + 2 ^ sz - b) % 2 ^ sz

/-- Conversion of an `int` to `std::size_t`. -/
def intW (sz : Nat) (x : Int) : Nat := (x % 2 ^ sz).toNat

/-- `explicit diy_fp(FloatType d)` (diy_fp.h:139-161). -/
def DiyFp.ofFloatW (T : FloatType) (bits : Nat) : M DiyFp :=
  let mantissaMask := mask T.W T.mbs
  let exponentMask := (2 ^ T.W - 1 - mantissaMask) ^^^ msbValue T.W
  let mf := bits &&& mantissaMask
  let me := (bits &&& exponentMask) >>> T.mbs
  if me != 0 then do
    let e ← chkInt (toInt32 me - T.bias)
    pure { f := (mf + T.hiddenBit) % 2 ^ T.W, e := e }
  else do
    let e ← chkInt (1 - T.bias)
    pure { f := mf, e := e }

/-- The loop of `normalize()` (diy_fp.h:271-275). -/
def normalizeLoopW (W : Nat) : Nat → DiyFp → M DiyFp
  | 0, _ => .error .noTermination
  | n + 1, w =>
    if highestBit W w.f then .ok w
    else do
      let e ← chkInt (w.e - 1)
      normalizeLoopW W n { f := (w.f <<< 1) % 2 ^ W, e := e }

/-- `normalize()` (diy_fp.h:267-276). -/
def DiyFp.normalizeW (W : Nat) (w : DiyFp) : M DiyFp := do
  assertM (w.f != 0)
  normalizeLoopW W W w

/-- `operator++` (prefix) (diy_fp.h:350-363). -/
def DiyFp.incW (W : Nat) (w : DiyFp) : M DiyFp :=
  if w.f < 2 ^ W - 1 then pure { w with f := (w.f + 1) % 2 ^ W }
  else do
    let e ← chkInt (w.e + 1)
    pure { f := ((w.f >>> 1) + 1) % 2 ^ W, e := e }

/-- `operator--` (prefix) (diy_fp.h:374-387). -/
def DiyFp.decW (W : Nat) (w : DiyFp) : M DiyFp :=
  if w.f > 1 then pure { w with f := w.f - 1 }
  else do
    let e ← chkInt (w.e - 1)
    pure { f := ((w.f <<< 1) % 2 ^ W + 2 ^ W - 1) % 2 ^ W, e := e }

/-- Loop of `normalize_from_ieee754()` (diy_fp.h:500-504). -/
def normIeeeLoopW (T : FloatType) : Nat → DiyFp → M DiyFp
  | 0, _ => .error .noTermination
  | n + 1, w =>
    if nthBit w.f T.p then .ok w
    else do
      let e ← chkInt (w.e - 1)
      normIeeeLoopW T n { f := (w.f <<< 1) % 2 ^ T.W, e := e }

/-- `normalize_from_ieee754()` (diy_fp.h:492-511): `e_diff` is of the unsigned type of the
mantissa, so `m_e -= e_diff` is computed in that type and converted back to `int`. -/
def DiyFp.normalizeFromIeee754W (T : FloatType) (w : DiyFp) : M DiyFp := do
  assertM (w.f != 0)
  let w ← normIeeeLoopW T (T.W + 1) w
  let eDiff := T.W - T.p - 1
  pure { f := (w.f <<< eDiff) % 2 ^ T.W, e := toInt32 (subW T.W (intW T.W w.e) eDiff) }

/-- `boundaries(FloatType d)` (diy_fp.h:438-463). -/
def boundariesW (T : FloatType) (bits : Nat) : M (DiyFp × DiyFp) := do
  let v ← DiyFp.ofFloatW T bits
  let e ← chkInt (v.e - 1)
  let pl ← DiyFp.normalizeFromIeee754W T
    { f := ((v.f <<< 1) % 2 ^ T.W + 1) % 2 ^ T.W, e := e }
  let shiftAmount := 1 + (if v.f == T.hiddenBit then 1 else 0)
  let mf := ((v.f <<< shiftAmount) % 2 ^ T.W + 2 ^ T.W - 1) % 2 ^ T.W
  let me ← chkInt (v.e - (shiftAmount : Int))
  let amount ← chkInt (me - pl.e)
  let mf ← shlM T.W mf amount
  pure ({ f := mf, e := pl.e }, pl)

/-- `cached_power<FloatType>(k)` (cached_power.h:38-46). -/
def cachedPowerW (sz : Nat) (T : FloatType) (k : Int) : M DiyFp := do
  assertM (decide (k ≥ -(T.pow0Offset : Int)))
  let index := addW sz T.pow0Offset (intW sz k)
  match T.powF[index]?, T.powE[index]? with
  | some f, some e => pure { f := f, e := e }
  | _, _ => .error .badIndex

/-- `operator*=` (diy_fp.h:320-341): `bit_size` is a `std::size_t`, so
`m_e += rhs.m_e + bit_size` is computed in that type and converted back to `int`. -/
def DiyFp.mulW (sz W : Nat) (x y : DiyFp) : DiyFp :=
  { f := (x.mul W y).f
    e := toInt32 (addW sz (intW sz x.e) (addW sz (intW sz y.e) W)) }

/-- `downsample()` (diy_fp.h:186-236): the exponent field
`m_e + shift_amount + exponent_bias - (denorm_exp > lsb_pow)` is computed in `std::size_t` and then
converted to the type of the mantissa (diy_fp.h:226). -/
def DiyFp.downsampleW (sz : Nat) (T : FloatType) (w : DiyFp) : M DownsampleResult := do
  assertM (w.f != 0)
  assertM (← w.isNormalized T.W)
  let mantissaMask := mask T.W T.mbs
  let lsbPow := T.W - T.p
  if w.e ≥ T.maxExp then
    pure { value := T.infBits, status := .overflow, isAccurate := true }
  else do
  let top ← chkInt (w.e + T.W)
  if top < T.minExp - T.mbs then
    pure { value := 0, status := .underflow, isAccurate := true }
  else do
    let d ← chkInt (T.minExp - T.mbs - w.e)
    let d ← chkInt (d - 1)
    let denormExp := positivePart d
    assertM (decide (denormExp < T.W))
    let shiftAmount := max denormExp lsbPow
    let parts : Nat :=
      subW sz (addW sz (addW sz (intW sz w.e) shiftAmount) (intW sz T.bias)) (if denormExp > lsbPow then 1 else 0)
        % 2 ^ T.W
    let parts := (parts <<< T.mbs) % 2 ^ T.W
    let round ← roundUp T.W w.f shiftAmount
    let parts := parts |||
      ((((w.f >>> shiftAmount) + (if round.value then 1 else 0)) % 2 ^ T.W) &&& mantissaMask)
    pure { value := parts, status := .success, isAccurate := round.isAccurate }

/-- Body of `parse_mantissa` for a non-zero number (krosh.h:428-450): `lsb_pow` is the sum of
a `std::size_t` and an `int`. -/
def adjustMantissaW (sz : Nat) (T : FloatType) (value frac : Nat) : M DiyFp := do
  let w ← DiyFp.normalizeW T.W { f := value, e := 0 }
  if frac ≠ 0 then do
    assertM (decide (w.e > -(fractionBinaryDigits : Int)))
    let lsbPow := addW sz fractionBinaryDigits (intW sz w.e)
    let w : DiyFp := { f := w.f ||| (frac >>> lsbPow), e := w.e }
    let r ← roundUp 8 frac lsbPow
    if r.value then w.incW T.W else pure w
  else pure w

/-- `k_comp_exp<alpha, gamma>(e)` (k_comp.h:48-51): the `int` arithmetic around the `double`
expression, and its conversion to `int`. -/
def kCompW [FpEval] (alpha e : Int) : M Int := do
  let d ← chkInt (alpha - e)
  let _ ← chkInt (d - 1)
  let _ ← chkInt (e + 1)
  chkInt (FpEval.kComp alpha e)

/-- First loop of `gen` (grisu.h:150-158); `*len` is an `int`. -/
def genIntLoopW (o : Nat) : (kappa div p1 : Nat) → List Nat → (len : Nat) → M (List Nat × Nat × Nat)
  | 0, _, _, buf, len => .ok (buf, len, 0)
  | kappa + 1, div, p1, buf, len =>
    if p1 ≠ 0 then do
      if div = 0 then .error .divByZero
      else do
        let len' ← chkInt (len + 1)
        let buf ← wr buf (o + len) ('0'.toNat + p1 / div)
        genIntLoopW o kappa (div / 10) (p1 % div) buf len'.toNat
    else .ok (buf, len, kappa + 1)

/-- Second loop of `gen` (grisu.h:175-188). -/
def genFracLoopW (T : FloatType) (o s oneF : Nat) (some : Bool) :
    (fuel : Nat) → (p2 delta : Nat) → List Nat → (len kappa : Nat) → M (List Nat × Nat × Nat)
  | 0, _, _, _, _, _ => .error .noTermination
  | fuel + 1, p2, delta, buf, len, kappa =>
    if p2 > delta then do
      let p2 := (p2 * 10) % 2 ^ T.W
      let d := (p2 >>> s) % 256
      let (buf, len) ← (if some || d != 0 then do
          let len' ← chkInt (len + 1)
          let buf ← wr buf (o + len) ('0'.toNat + d)
          pure (buf, len'.toNat)
        else pure (buf, len) : M (List Nat × Nat))
      genFracLoopW T o s oneF some fuel (p2 &&& (oneF - 1)) ((delta * 10) % 2 ^ T.W)
        buf len ((kappa + 1) % 256)
    else .ok (buf, len, kappa)

/-- `digit_gen_select<false>::gen(Mp, Mm, buffer, len, K)` (grisu.h:124-191). -/
def digitGenW (sz : Nat) (T : FloatType) (Mp Mm : DiyFp) (buf : List Nat) (o : Nat) (K : Int) :
    M (List Nat × Nat × Int) := do
  assertM (decide (Mp.e ≤ 0))
  let delta ← Mp.sub T.W Mm
  let negE ← chkInt (-Mp.e)
  let s := negE.toNat
  let oneF ← raisedBit T.W (intW sz negE)
  let p1 := (Mp.f >>> s) % 2 ^ 32
  let p2 := Mp.f &&& (oneF - 1)
  assertM (p1 != 0 || p2 != 0)
  let closeToDelta := decide (p2 ≤ delta.f)
  if p1 ≠ 0 then do
    let kd := calculateKappaDiv p1
    let (buf, len, kappa) ← genIntLoopW o kd.1 kd.2 p1 buf 0
    if closeToDelta then do
      let K ← chkInt (K + kappa)
      pure (buf, len, K)
    else do
      let buf ← memset buf (o + len) '0'.toNat kappa
      let len ← chkInt ((len : Int) + kappa)
      let (buf, len, kappa) ←
        genFracLoopW T o s oneF (decide (len > 0)) (T.W + 1) p2 delta.f buf len.toNat 0
      let K ← chkInt (K - kappa)
      pure (buf, len, K)
  else do
    let (buf, len, kappa) ← genFracLoopW T o s oneF false (T.W + 1) p2 delta.f buf 0 0
    let K ← chkInt (K - kappa)
    pure (buf, len, K)

/-- `grisu2<alpha, gamma>(v, buffer, length, K)` (grisu.h:262-283) with the parameters of `ftoa`. -/
def grisu2W [FpEval] (sz : Nat) (T : FloatType) (bits : Nat) (buf : List Nat) (o : Nat) :
    M (List Nat × Nat × Int) := do
  let (wm, wp) ← boundariesW T bits
  let mk ← kCompW T.alpha wp.e
  let cmk ← cachedPowerW sz T mk
  let wm := wm.mulW sz T.W cmk
  let wp := wp.mulW sz T.W cmk
  let wm ← wm.incW T.W
  let wp ← wp.decW T.W
  let K ← chkInt (-mk)
  digitGenW sz T wp wm buf o K

/-- Case `'0'` (krosh.h:255-261). -/
def stepZeroW (sz : Nat) (st : PState) : PState :=
  if !st.digits.isEmpty || st.dotSet then
    { st with
      zeroLen := addW sz st.zeroLen 1
      powGain := addW sz st.powGain (if st.dotSet then 0 else 1) }
  else st

/-- First part of case `'1'`..`'9'` (krosh.h:272-289). -/
def flushZerosW (sz kappa : Nat) (st : PState) : PState :=
  if st.zeroLen ≠ 0 ∧ st.digits.length < kappa then
    let spare := subW sz kappa st.digits.length
    let nonEmpty := !st.digits.isEmpty
    let zeroCopy := if nonEmpty then min st.zeroLen spare else st.zeroLen
    let powReduced := if nonEmpty then min st.powGain spare else st.powGain
    { st with
      digits := if nonEmpty then st.digits ++ List.replicate zeroCopy 0 else st.digits
      fracCount := addW sz st.fracCount (subW sz zeroCopy powReduced)
      zeroLen := subW sz st.zeroLen zeroCopy
      powGain := subW sz st.powGain powReduced }
  else st

/-- Second part of case `'1'`..`'9'` (krosh.h:291-308). -/
def pushDigitW (sz : Nat) (mem : List Nat) (str kappa c : Nat) (st : PState) : M PState :=
  if st.digits.length < kappa then
    pure { st with
      digits := st.digits ++ [c - '0'.toNat]
      fracCount := addW sz st.fracCount (if st.dotSet then 1 else 0) }
  else do
    let st ← (if !st.fracCalculated then do
        let suffix := subW sz (addW sz st.digits.length st.zeroLen) kappa
        if suffix > str + st.pos then .error .oobRead
        else do
          let tail ← extractFractionDigits mem fractionDecimalDigits (str + st.pos - suffix)
          pure { st with
            frac := convertNumerator fractionDecimalDigits fractionBinaryDigits tail % 256
            fracCalculated := true }
      else pure st : M PState)
    pure { st with powGain := addW sz st.powGain (if st.dotSet then 0 else 1) }

/-- The `switch` of `parse_digits` (krosh.h:253-357). -/
def parseSwitchW [Locale] (sz : Nat) (T : FloatType) (mem : List Nat) (str : Nat) (c : Nat) (st : PState) :
    M PState :=
  if c = '0'.toNat then pure (stepZeroW sz st)
  else if '1'.toNat ≤ c ∧ c ≤ '9'.toNat then
    pushDigitW sz mem str T.digits10 c (flushZerosW sz T.digits10 st)
  else if c = '.'.toNat then
    pure { st with stop := st.dotSet, dotSet := true }
  else if c = 'n'.toNat ∨ c = 'N'.toNat then
    if st.pos = (if st.signSet then 1 else 0) then do
      let eaten ← eatNan mem (str + st.pos + 1)
      pure { st with
        pos := addW sz st.pos (addW sz eaten 1)
        special := if eaten ≠ 0 then .nan else st.special
        stop := true }
    else pure { st with stop := true }
  else if c = 'i'.toNat ∨ c = 'I'.toNat then
    if st.pos = (if st.signSet then 1 else 0) then do
      let eaten ← eatInf mem (str + st.pos + 1)
      pure { st with
        pos := addW sz st.pos (addW sz eaten 1)
        special := if eaten ≠ 0 then .inf else st.special
        stop := true }
    else pure { st with stop := true }
  else if (c = '-'.toNat ∨ c = '+'.toNat) ∧ st.pos = 0 then
    pure { st with sign := decide ('-'.toNat ≠ c), signSet := true }
  else pure { st with stop := true }

/-- One iteration of the loop (krosh.h:252-361). -/
def parseStepW [Locale] (sz : Nat) (T : FloatType) (mem : List Nat) (str : Nat) (st : PState) : M PState := do
  let c ← rd mem (str + st.pos)
  let st ← parseSwitchW sz T mem str c st
  pure { st with
    stop := st.stop || decide (st.pos > maximumOffset)
    pos := addW sz st.pos 1 }

/-- The loop `while (!go_to_beach)` (krosh.h:250-362), with an iteration budget. -/
def parseLoopW [Locale] (sz : Nat) (T : FloatType) (mem : List Nat) (str : Nat) : (fuel : Nat) → PState → M PState
  | 0, _ => .error .noTermination
  | fuel + 1, st =>
    if st.stop then pure st
    else do
      let st ← parseStepW sz T mem str st
      parseLoopW sz T mem str fuel st

/-- `parse_digits<FloatType>(str)` (krosh.h:231-372). -/
def parseDigitsW [Locale] (sz : Nat) (T : FloatType) (mem : List Nat) (str : Nat) : M DigitParseResult := do
  let st ← parseLoopW sz T mem str (maximumOffset + 3) PState.init
  let value ← accumulate T.W T.digits10 st.digits.reverse 0 0
  pure {
    value := value
    strEnd := str + subW sz st.pos 1
    K := toInt32 (subW sz st.powGain st.fracCount)
    frac := st.frac
    special := st.special
    sign := st.sign }

/-- `parse_mantissa<FloatType>(str)` (krosh.h:413-454). -/
def parseMantissaW [Locale] (sz : Nat) (T : FloatType) (mem : List Nat) (str : Nat) : M MantissaParseResult := do
  let dp ← parseDigitsW sz T mem str
  if dp.special = .no then do
    let w ← (if dp.value ≠ 0 then adjustMantissaW sz T dp.value dp.frac
      else pure { f := dp.value, e := 0 } : M DiyFp)
    pure { value := w, K := dp.K, strEnd := dp.strEnd, special := dp.special, sign := dp.sign }
  else
    pure { value := { f := 0, e := 0 }, K := 0, strEnd := dp.strEnd,
           special := dp.special, sign := dp.sign }

/-- `parse_exponent(str)` (krosh.h:478-501). -/
def parseExponentW [Locale] (sz : Nat) (mem : List Nat) (str : Nat) : M ExponentParseResult := do
  let c ← rd mem str
  if c ≠ 'e'.toNat ∧ c ≠ 'E'.toNat then pure { value := 0, strEnd := str }
  else do
    let dp ← parseDigitsW sz .float mem (str + 1)
    let pw ← seqPow 32 exponentDecimalDigits (intW sz dp.K)
    let v := toInt32 (dp.value * pw)
    let v ← (if !dp.sign then chkInt (-v) else pure v : M Int)
    pure { value := v, strEnd := dp.strEnd }

/-- `krosh<FloatType>(str)` (krosh.h:540-618). -/
def kroshW [Locale] (sz : Nat) (T : FloatType) (mem : List Nat) (str : Nat) : M KroshResult := do
  let mp ← parseMantissaW sz T mem str
  if mp.special = .no ∧ mp.value.f ≠ 0 then do
    let ep ← parseExponentW sz mem mp.strEnd
    let K ← chkInt (mp.K + ep.value)
    if K ≠ 0 ∧ ¬ (T.powLo ≤ K ∧ K ≤ T.powHi) then
      if ¬ (T.powLo ≤ K) then
        pure { value := 0, status := .underflow, strEnd := ep.strEnd, isAccurate := true }
      else
        pure { value := T.infBits, status := .overflow, strEnd := ep.strEnd, isAccurate := true }
    else do
      let w ← (if K ≠ 0 then do
          let c ← cachedPowerW sz T K
          pure (mp.value.mulW sz T.W c)
        else pure mp.value : M DiyFp)
      let w ← w.normalizeW T.W
      let v ← w.downsampleW sz T
      pure { value := if !mp.sign then negBits T v.value else v.value
             strEnd := ep.strEnd, status := v.status, isAccurate := v.isAccurate }
  else
    let value := match mp.special with
      | .nan => T.qnanBits
      | .inf => T.infBits
      | .no => 0
    pure { value := if !mp.sign then negBits T value else value
           strEnd := mp.strEnd, status := .success, isAccurate := true }

/-- `atof<FloatType>(str, str_end, fallback_func)` (atof.h:94-126). -/
def atofW [Locale] (sz : Nat) (T : FloatType) (fb : Fallback) (errno : Nat) (mem : List Nat) (str : Nat) :
    M AtofResult := do
  let cr ← kroshW sz T mem str
  if cr.strEnd ≠ str then
    if cr.isAccurate then
      pure { value := cr.value, status := cr.status, strEnd := cr.strEnd,
             errno := errno, fellBack := false }
    else
      let r := fb mem str errno
      pure { value := r.value, status := checkErrno T r.errno r.value, strEnd := r.strEnd,
             errno := r.errno, fellBack := true }
  else
    pure { value := 0, status := .success, strEnd := cr.strEnd, errno := errno, fellBack := false }

/-- `from_string<FloatType>(str, fallback_func)` (atof.h:173-176). -/
def fromStringW [Locale] (sz : Nat) (T : FloatType) (fb : Fallback) (errno : Nat) (s : List Nat) : M AtofResult :=
  atofW sz T fb errno (s ++ [0]) 0

/-- `print_scientific(buffer, len, dot_pos)` (prettify.h:119-136). -/
def printScientificW (sz : Nat) (buf : List Nat) (o len : Nat) (dotPos : Int) : M (List Nat × Nat) := do
  let K ← chkInt (dotPos - 1)
  let (buf, o') ← (if len > 1 then do
      let buf ← memmove buf (o + 2) (o + 1) (subW 32 len 1)
      let buf ← wr buf (o + 1) '.'.toNat
      pure (buf, o + len)
    else pure (buf, o) : M (List Nat × Nat))
  let buf ← wr buf (o' + 1) 'e'.toNat
  let buf ← wr buf (o' + 2) '-'.toNat
  let o' := o' + (if K < 0 then 1 else 0)
  let a ← chkInt (if K < 0 then -K else K)
  let (buf, n) ← fillExponent a.toNat buf (o' + 2)
  pure (buf, addW sz (addW 32 (addW 32 (addW 32 len (if len > 1 then 1 else 0)) 1) (if K < 0 then 1 else 0)) n)

/-- `print_decimal(buffer, len, k)` (prettify.h:152-174). -/
def printDecimalW (buf : List Nat) (o len : Nat) (k : Int) : M (List Nat × Nat) := do
  let dotPos ← chkInt (toInt32 len + k)
  let actualDotPos : Nat := if dotPos > 0 then dotPos.toNat else 1
  let off ← (if dotPos > 0 then pure 0 else chkInt (2 - dotPos) : M Int)
  let leftOffset : Nat := intW 32 off
  let rightOffset := positivePart k
  let leftShiftSrc := positivePart dotPos
  let leftShiftDest := if dotPos > 0 then addW 32 leftShiftSrc (if k < 0 then 1 else 0) else leftOffset
  let d ← chkInt (toInt32 len - toInt32 leftShiftSrc)
  let leftShiftLen := positivePart d
  let termPos := addW 32 (addW 32 len rightOffset) (subW 32 leftShiftDest leftShiftSrc)
  let buf ← memmove buf (o + leftShiftDest) (o + leftShiftSrc) leftShiftLen
  let buf ← memset buf o '0'.toNat leftOffset
  let buf ← memset buf (o + len) '0'.toNat rightOffset
  let buf ← wr buf (o + actualDotPos) '.'.toNat
  let buf ← wr buf (o + termPos) 0
  pure (buf, termPos)

/-- `prettify<decimal_scientific_threshold>(buffer, len, k)` (prettify.h:195-218):
`field_width` is the `int` maximum converted to `std::size_t`. -/
def prettifyW (sz threshold : Nat) (buf : List Nat) (o len : Nat) (k : Int) : M (List Nat × Nat) := do
  let dotPos ← chkInt (toInt32 len + k)
  let negK ← chkInt (-k)
  match chooseFormat threshold (intW sz (max dotPos negK)) with
  | .decimal => printDecimalW buf o len k
  | .scientific => printScientificW sz buf o len dotPos

/-- `ftoa(v, buffer)` (ftoa.h:88-141): the new buffer and the returned length, a
`std::size_t`. -/
def ftoaW [FpEval] (sz : Nat) (T : FloatType) (bits : Nat) (buf : List Nat) : M (List Nat × Nat) :=
  if isNan T bits then do
    let buf ← wrStr buf 0 ['n'.toNat, 'a'.toNat, 'n'.toNat, 0]
    pure (buf, 3)
  else if isInf T bits then
    if !isNegative T bits then do
      let buf ← wrStr buf 0 ['i'.toNat, 'n'.toNat, 'f'.toNat, 0]
      pure (buf, 3)
    else do
      let buf ← wrStr buf 0 ['-'.toNat, 'i'.toNat, 'n'.toNat, 'f'.toNat, 0]
      pure (buf, 4)
  else if isZero T bits then do
    let buf ← wrStr buf 0 ['0'.toNat, 0]
    pure (buf, 1)
  else do
    let buf ← wr buf 0 '-'.toNat
    let o := if isNegative T bits then 1 else 0
    let (buf, len, K) ← grisu2W sz T bits buf o
    let (buf, n) ← prettifyW sz decimalScientificThreshold buf o len K
    pure (buf, addW sz (if isNegative T bits then 1 else 0) n)

/-- `to_basic_string<FloatType, CharType>(v)` (ftoa.h:165-175). -/
def toBasicStringW [FpEval] (sz : Nat) (T : FloatType) (bits : Nat) : M (List Nat) := do
  let (buf, _) ← ftoaW sz T bits (List.replicate (maxBufferSize T) 0)
  pure (buf.takeWhile (· ≠ 0))

end Floaxie
