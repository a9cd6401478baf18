import Verif.Model.Atof

/-!
# The code compiled with `NDEBUG`

The functions that contain assertions, and their callers, as they are when `assert` expands to nothing.  Where the assertion
guarded against a shift by too large an amount, a table index out of range or a conversion of a negative `int` to
`std::size_t`, the operation itself is now checked (in the model of the debug build it comes after the assertion and needs no
check of its own).  Everything that contains no assertion is shared with the model of the debug build.
-/

namespace Floaxie

open FloatType

/-- An `int` converted to `std::size_t` (64 bits): a negative one becomes huge. -/
def toSizeT (i : Int) : Nat := if 0 ≤ i then i.toNat else 2 ^ 64 - (-i).toNat

/-- `raised_bit<NumericType>(power)` (bit_ops.h:60-64) without its assertion: the shift is undefined from the width of
the type on. -/
def raisedBitR (W power : Nat) : M Nat :=
  if power < W then .ok (1 <<< power) else .error .badShift

/-- `round_up(last_bits, round_to_power)` (bit_ops.h:195-207); `round_to_power - 1` is computed modulo 2^64. -/
def roundUpR (W lastBits roundToPower : Nat) : M RoundResult := do
  let roundBit ← raisedBitR W (subSz roundToPower 1)
  let checkMask := mask W (roundToPower + 1) ^^^ roundBit
  pure {
    isAccurate := (lastBits &&& mask W roundToPower) != roundBit
    value := (lastBits &&& roundBit) != 0 && (lastBits &&& checkMask) != 0 }

/-- `is_normalized()` (diy_fp.h:255-259). -/
def DiyFp.isNormalizedR (W : Nat) (w : DiyFp) : M Bool := pure ((w.f &&& msbValue W) != 0)

/-- `normalize()` (diy_fp.h:267-276): for zero the loop never ends. -/
def DiyFp.normalizeR (W : Nat) (w : DiyFp) : M DiyFp := normalizeLoop W W w

/-- `operator-=` / `operator-` (diy_fp.h:293-306): modulo `2^W`, the exponent of the right operand is ignored. -/
def DiyFp.subR (W : Nat) (a b : DiyFp) : M DiyFp := pure { a with f := (a.f + 2 ^ W - b.f) % 2 ^ W }

/-- `normalize_from_ieee754()` (diy_fp.h:492-511). -/
def DiyFp.normalizeFromIeee754R (T : FloatType) (w : DiyFp) : M DiyFp := do
  let w ← normIeeeLoop T (T.W + 1) w
  let eDiff := T.W - T.p - 1
  pure { f := (w.f <<< eDiff) % 2 ^ T.W, e := w.e - eDiff }

/-- `boundaries(FloatType d)` (diy_fp.h:438-463). -/
def boundariesR (T : FloatType) (bits : Nat) : M (DiyFp × DiyFp) := do
  let v := DiyFp.ofFloat T bits
  let pl ← DiyFp.normalizeFromIeee754R T
    { f := ((v.f <<< 1) % 2 ^ T.W + 1) % 2 ^ T.W, e := v.e - 1 }
  let shiftAmount := 1 + (if v.f == T.hiddenBit then 1 else 0)
  let mf := ((v.f <<< shiftAmount) % 2 ^ T.W + 2 ^ T.W - 1) % 2 ^ T.W
  let me := v.e - (shiftAmount : Int)
  let mf ← shlM T.W mf (me - pl.e)
  pure ({ f := mf, e := pl.e }, pl)

/-- `downsample()` (diy_fp.h:186-236): `f >> shift_amount` is undefined from the width of the word on. -/
def DiyFp.downsampleR (T : FloatType) (w : DiyFp) : M DownsampleResult := do
  let mantissaMask := mask T.W T.mbs
  let lsbPow := T.W - T.p
  if w.e ≥ T.maxExp then
    pure { value := T.infBits, status := .overflow, isAccurate := true }
  else if w.e + T.W < T.minExp - T.mbs then
    pure { value := 0, status := .underflow, isAccurate := true }
  else do
    let denormExp := positivePart (T.minExp - T.mbs - w.e - 1)
    let shiftAmount := max denormExp lsbPow
    let parts : Nat :=
      ((w.e + shiftAmount + T.bias - (if denormExp > lsbPow then 1 else 0)) % 2 ^ T.W).toNat
    let parts := (parts <<< T.mbs) % 2 ^ T.W
    let round ← roundUpR T.W w.f shiftAmount
    if shiftAmount ≥ T.W then .error .badShift
    else do
      let parts := parts |||
        ((((w.f >>> shiftAmount) + (if round.value then 1 else 0)) % 2 ^ T.W) &&& mantissaMask)
      pure { value := parts, status := .success, isAccurate := round.isAccurate }

/-- `cached_power<FloatType>(k)` (cached_power.h:38-46). -/
def cachedPowerR (T : FloatType) (k : Int) : M DiyFp :=
  let index := toSizeT (T.pow0Offset + k)
  match T.powF[index]?, T.powE[index]? with
  | some f, some e => pure { f := f, e := e }
  | _, _ => .error .badIndex

/-- `digit_gen_select<false>::gen(Mp, Mm, buffer, len, K)` (grisu.h:124-191). -/
def digitGenR (T : FloatType) (Mp Mm : DiyFp) (buf : List Nat) (o : Nat) (K : Int) :
    M (List Nat × Nat × Int) := do
  let delta ← Mp.subR T.W Mm
  let s := toSizeT (-Mp.e)
  let oneF ← raisedBitR T.W s
  let p1 := (Mp.f >>> s) % 2 ^ 32
  let p2 := Mp.f &&& (oneF - 1)
  let closeToDelta := decide (p2 ≤ delta.f)
  if p1 ≠ 0 then do
    let kd := calculateKappaDiv p1
    let (buf, len, kappa) ← genIntLoop o kd.1 kd.2 p1 buf 0
    if closeToDelta then pure (buf, len, K + kappa)
    else do
      let buf ← memset buf (o + len) '0'.toNat kappa
      let len := len + kappa
      let (buf, len, kappa) ←
        genFracLoop T o s oneF (decide (len > 0)) (T.W + 1) p2 delta.f buf len 0
      pure (buf, len, K - kappa)
  else do
    let (buf, len, kappa) ← genFracLoop T o s oneF false (T.W + 1) p2 delta.f buf 0 0
    pure (buf, len, K - kappa)

/-- `grisu2<alpha, gamma>(v, buffer, length, K)` (grisu.h:262-283) with the parameters of `ftoa`. -/
def grisu2R [FpEval] (T : FloatType) (bits : Nat) (buf : List Nat) (o : Nat) :
    M (List Nat × Nat × Int) := do
  let (wm, wp) ← boundariesR T bits
  let mk := FpEval.kComp T.alpha wp.e
  let cmk ← cachedPowerR T mk
  let wm := wm.mul T.W cmk
  let wp := wp.mul T.W cmk
  let wm := wm.inc T.W
  let wp := wp.dec T.W
  digitGenR T wp wm buf o (-mk)

/-- `ftoa(v, buffer)` (ftoa.h:88-141). -/
def ftoaR [FpEval] (T : FloatType) (bits : Nat) (buf : List Nat) : M (List Nat × Nat) :=
  if isNan T bits then do
    let buf ← wrStr buf 0 ['n'.toNat, 'a'.toNat, 'n'.toNat, 0]
    pure (buf, 3)
  else if isInf T bits then
    if !isNegative T bits then do
      let buf ← wrStr buf 0 ['i'.toNat, 'n'.toNat, 'f'.toNat, 0]
      pure (buf, 3)
    else do
      let buf ← wrStr buf 0 ['-'.toNat, 'i'.toNat, 'n'.toNat, 'f'.toNat, 0]
      pure (buf, 4)
  else if isZero T bits then do
    let buf ← wrStr buf 0 ['0'.toNat, 0]
    pure (buf, 1)
  else do
    let buf ← wr buf 0 '-'.toNat
    let o := if isNegative T bits then 1 else 0
    let (buf, len, K) ← grisu2R T bits buf o
    let (buf, n) ← prettify decimalScientificThreshold buf o len K
    pure (buf, (if isNegative T bits then 1 else 0) + n)

/-- `to_basic_string<FloatType, CharType>(v)` (ftoa.h:165-175). -/
def toBasicStringR [FpEval] (T : FloatType) (bits : Nat) : M (List Nat) := do
  let (buf, _) ← ftoaR T bits (List.replicate (maxBufferSize T) 0)
  pure (buf.takeWhile (· ≠ 0))

/-- Body of `parse_mantissa` for a non-zero number (krosh.h:428-450): `lsb_pow` is a `std::size_t`, `frac` is shifted as an
`int`. -/
def adjustMantissaR (T : FloatType) (value frac : Nat) : M DiyFp := do
  let w ← DiyFp.normalizeR T.W { f := value, e := 0 }
  if frac ≠ 0 then do
    let lsbPow := toSizeT ((fractionBinaryDigits : Int) + w.e)
    if lsbPow ≥ 32 then .error .badShift
    else do
      let w : DiyFp := { f := w.f ||| (frac >>> lsbPow), e := w.e }
      let r ← roundUpR 8 frac lsbPow
      if r.value then pure (w.inc T.W) else pure w
  else pure w

/-- `parse_mantissa<FloatType>(str)` (krosh.h:413-454). -/
def parseMantissaR [Locale] (T : FloatType) (mem : List Nat) (str : Nat) : M MantissaParseResult := do
  let dp ← parseDigits T mem str
  if dp.special = .no then do
    let w ← (if dp.value ≠ 0 then adjustMantissaR T dp.value dp.frac
      else pure { f := dp.value, e := 0 } : M DiyFp)
    pure { value := w, K := dp.K, strEnd := dp.strEnd, special := dp.special, sign := dp.sign }
  else
    pure { value := { f := 0, e := 0 }, K := 0, strEnd := dp.strEnd,
           special := dp.special, sign := dp.sign }

/-- `krosh<FloatType>(str)` (krosh.h:540-618). -/
def kroshR [Locale] (T : FloatType) (mem : List Nat) (str : Nat) : M KroshResult := do
  let mp ← parseMantissaR T mem str
  if mp.special = .no ∧ mp.value.f ≠ 0 then do
    let ep ← parseExponent mem mp.strEnd
    let K ← chkInt (mp.K + ep.value)
    if K ≠ 0 ∧ ¬ (T.powLo ≤ K ∧ K ≤ T.powHi) then
      if ¬ (T.powLo ≤ K) then
        pure { value := 0, status := .underflow, strEnd := ep.strEnd, isAccurate := true }
      else
        pure { value := T.infBits, status := .overflow, strEnd := ep.strEnd, isAccurate := true }
    else do
      let w ← (if K ≠ 0 then do
          let c ← cachedPowerR T K
          pure (mp.value.mul T.W c)
        else pure mp.value : M DiyFp)
      let w ← w.normalizeR T.W
      let v ← w.downsampleR T
      pure { value := if !mp.sign then negBits T v.value else v.value
             strEnd := ep.strEnd, status := v.status, isAccurate := v.isAccurate }
  else
    let value := match mp.special with
      | .nan => T.qnanBits
      | .inf => T.infBits
      | .no => 0
    pure { value := if !mp.sign then negBits T value else value
           strEnd := mp.strEnd, status := .success, isAccurate := true }

/-- `atof<FloatType>(str, str_end, fallback_func)` (atof.h:94-126). -/
def atofR [Locale] (T : FloatType) (fb : Fallback) (errno : Nat) (mem : List Nat) (str : Nat) :
    M AtofResult := do
  let cr ← kroshR T mem str
  if cr.strEnd ≠ str then
    if cr.isAccurate then
      pure { value := cr.value, status := cr.status, strEnd := cr.strEnd,
             errno := errno, fellBack := false }
    else
      let r := fb mem str errno
      pure { value := r.value, status := checkErrno T r.errno r.value, strEnd := r.strEnd,
             errno := r.errno, fellBack := true }
  else
    pure { value := 0, status := .success, strEnd := cr.strEnd, errno := errno, fellBack := false }

/-- `from_string<FloatType>(str, fallback_func)` (atof.h:173-176). -/
def fromStringR [Locale] (T : FloatType) (fb : Fallback) (errno : Nat) (s : List Nat) : M AtofResult :=
  atofR T fb errno (s ++ [0]) 0

end Floaxie
