import Verif.Model.Atof
import Verif.Model.Prettify

/-!
# Model: objects without an initialiser

Several objects of the code are declared without an initialiser and get their values
later, member by member: the `ret` of `round_up` (bit_ops.h:197), `downsample`
(diy_fp.h:188), `parse_mantissa` (krosh.h:415), `parse_exponent` (krosh.h:480) and
`krosh` (krosh.h:542), and `len` and `K` of `ftoa` (ftoa.h:136).  Until then their
values are indeterminate, and reading one is undefined behaviour ([dcl.init]/12).

The rest of the model cannot express that: there a structure is built with all its
members.  Here the functions with such objects are transcribed a second time,
assignment by assignment, with members that may be indeterminate.  All other functions
(their locals have initialisers, among them `digit_parse_result`, krosh.h:189,
`value_and_status`, atof.h:49, and `std::pair<diy_fp, diy_fp>`, which value-initialises)
are used as they are.
-/

namespace Floaxie

open FloatType

/-- What can go wrong: undefined behaviour as before, or the use of an indeterminate
value. -/
inductive Fault where
  | ub (e : UB)
  | indeterminate
  deriving DecidableEq, Repr

/-- Outcome of a C++ function. -/
abbrev I := Except Fault

/-- A function without objects that lack an initialiser. -/
def liftI {α : Type} (x : M α) : I α := x.mapError .ub

/-- An object of scalar type; `none` is the indeterminate value. -/
abbrev Slot (α : Type) := Option α

/-- Lvalue-to-rvalue conversion. -/
def Slot.read {α : Type} : Slot α → I α
  | some a => .ok a
  | none => .error .indeterminate

/-- For each `return ret;` of an object that may have indeterminate members: whether the
compiler constructs the object in place (copy elision, [class.copy]/31, which is
permitted and not required).  If not, the implicit copy constructor reads all the
members. -/
structure Elision where
  roundUp : Bool
  downsample : Bool
  mantissa : Bool
  exponent : Bool
  krosh : Bool
  deriving DecidableEq, Repr

/-! ## `round_up`, `downsample` -/

/-- `struct round_result` (bit_ops.h:166-174). -/
structure RoundObj where
  value : Slot Bool
  isAccurate : Slot Bool

/-- Its copy constructor. -/
def RoundObj.copy (o : RoundObj) : I RoundObj := do
  let v ← o.value.read
  let a ← o.isAccurate.read
  pure { value := some v, isAccurate := some a }

/-- `round_up(last_bits, round_to_power)` (bit_ops.h:195-207). -/
def roundUpI (el : Elision) (W lastBits roundToPower : Nat) : I RoundObj := do
  let ret : RoundObj := { value := none, isAccurate := none }
  liftI (assertM (decide (roundToPower > 0)))
  let roundBit ← liftI (raisedBit W (roundToPower - 1))
  let checkMask := mask W (roundToPower + 1) ^^^ roundBit
  let ret := { ret with isAccurate := some ((lastBits &&& mask W roundToPower) != roundBit) }
  let ret := { ret with value := some ((lastBits &&& roundBit) != 0 && (lastBits &&& checkMask) != 0) }
  if el.roundUp then pure ret else ret.copy

/-- `struct downsample_result` (diy_fp.h:166-175). -/
structure DownsampleObj where
  value : Slot Nat
  status : Slot Status
  isAccurate : Slot Bool

/-- Its copy constructor. -/
def DownsampleObj.copy (o : DownsampleObj) : I DownsampleObj := do
  let v ← o.value.read
  let s ← o.status.read
  let a ← o.isAccurate.read
  pure { value := some v, status := some s, isAccurate := some a }

/-- `downsample()` (diy_fp.h:186-236). -/
def DiyFp.downsampleI (el : Elision) (T : FloatType) (w : DiyFp) : I DownsampleObj := do
  let ret : DownsampleObj := { value := none, status := none, isAccurate := none }
  let ret := { ret with isAccurate := some true }
  let ret := { ret with status := some .success }
  liftI (assertM (w.f != 0))
  liftI (w.isNormalized T.W >>= assertM)
  let mantissaMask := mask T.W T.mbs
  let lsbPow := T.W - T.p
  if w.e ≥ T.maxExp then do
    let ret := { ret with value := some T.infBits }
    let ret := { ret with status := some .overflow }
    if el.downsample then pure ret else ret.copy
  else if w.e + T.W < T.minExp - T.mbs then do
    let ret := { ret with value := some 0 }
    let ret := { ret with status := some .underflow }
    if el.downsample then pure ret else ret.copy
  else do
    let denormExp := positivePart (T.minExp - T.mbs - w.e - 1)
    liftI (assertM (decide (denormExp < T.W)))
    let shiftAmount := max denormExp lsbPow
    let parts : Nat :=
      ((w.e + shiftAmount + T.bias - (if denormExp > lsbPow then 1 else 0)) % 2 ^ T.W).toNat
    let parts := (parts <<< T.mbs) % 2 ^ T.W
    let round ← roundUpI el T.W w.f shiftAmount
    let up ← round.value.read
    let parts := parts |||
      ((((w.f >>> shiftAmount) + (if up then 1 else 0)) % 2 ^ T.W) &&& mantissaMask)
    let ret := { ret with value := some parts }
    let acc ← round.isAccurate.read
    let ret := { ret with isAccurate := some acc }
    if el.downsample then pure ret else ret.copy

/-! ## `parse_mantissa`, `parse_exponent`, `krosh`, `atof` -/

/-- A `diy_fp` object; its default constructor is defaulted and leaves the members
indeterminate (diy_fp.h:124, 513-514). -/
structure DiyFpObj where
  f : Slot Nat
  e : Slot Int

/-- `diy_fp(mantissa, exponent)` (diy_fp.h:130) and the results of the operators. -/
def DiyFpObj.of (w : DiyFp) : DiyFpObj := { f := some w.f, e := some w.e }

/-- The value of the object: both members are read, as in the copy constructor
(diy_fp.h:127) and the operators. -/
def DiyFpObj.read (o : DiyFpObj) : I DiyFp := do
  let f ← o.f.read
  let e ← o.e.read
  pure { f := f, e := e }

/-- `struct mantissa_parse_result` (krosh.h:379-395). -/
structure MantissaObj where
  value : DiyFpObj
  K : Slot Int
  strEnd : Slot Nat
  special : Slot Speciality
  sign : Slot Bool

/-- Its copy constructor. -/
def MantissaObj.copy (o : MantissaObj) : I MantissaObj := do
  let w ← o.value.read
  let k ← o.K.read
  let p ← o.strEnd.read
  let sp ← o.special.read
  let s ← o.sign.read
  pure { value := .of w, K := some k, strEnd := some p, special := some sp, sign := some s }

/-- Body of `parse_mantissa` for a non-zero number (krosh.h:428-450): `w` refers to
`ret.value`. -/
def adjustMantissaI (el : Elision) (T : FloatType) (o : DiyFpObj) (frac : Nat) : I DiyFpObj := do
  let w ← o.read
  let w ← liftI (w.normalize T.W)
  if frac ≠ 0 then do
    liftI (assertM (decide (w.e > -(fractionBinaryDigits : Int))))
    let lsbPow := ((fractionBinaryDigits : Int) + w.e).toNat
    let w : DiyFp := { f := w.f ||| (frac >>> lsbPow), e := w.e }
    let r ← roundUpI el 8 frac lsbPow
    let up ← r.value.read
    if up then pure (.of (w.inc T.W)) else pure (.of w)
  else pure (.of w)

/-- `parse_mantissa<FloatType>(str)` (krosh.h:413-454). -/
def parseMantissaI [Locale] (el : Elision) (T : FloatType) (mem : List Nat) (str : Nat) : I MantissaObj := do
  let ret : MantissaObj := { value := { f := none, e := none }, K := none, strEnd := none, special := none, sign := none }
  let dp ← liftI (parseDigits T mem str)
  let ret := { ret with special := some dp.special }
  let ret := { ret with strEnd := some dp.strEnd }
  let ret := { ret with sign := some dp.sign }
  let ret ← (if dp.special = .no then do
      let ret := { ret with value := .of { f := dp.value, e := 0 } }
      let ret := { ret with K := some dp.K }
      if dp.value ≠ 0 then do
        let w ← adjustMantissaI el T ret.value dp.frac
        pure { ret with value := w }
      else pure ret
    else pure ret : I MantissaObj)
  if el.mantissa then pure ret else ret.copy

/-- `struct exponent_parse_result` (krosh.h:460-467). -/
structure ExponentObj where
  value : Slot Int
  strEnd : Slot Nat

/-- Its copy constructor. -/
def ExponentObj.copy (o : ExponentObj) : I ExponentObj := do
  let v ← o.value.read
  let p ← o.strEnd.read
  pure { value := some v, strEnd := some p }

/-- `parse_exponent(str)` (krosh.h:478-501). -/
def parseExponentI [Locale] (el : Elision) (mem : List Nat) (str : Nat) : I ExponentObj := do
  let ret : ExponentObj := { value := none, strEnd := none }
  let c ← liftI (rd mem str)
  let ret ← (if c ≠ 'e'.toNat ∧ c ≠ 'E'.toNat then do
      let ret := { ret with value := some 0 }
      pure { ret with strEnd := some str }
    else do
      let dp ← liftI (parseDigits .float mem (str + 1))
      let pw ← liftI (seqPow 32 exponentDecimalDigits ((dp.K % 2 ^ 64).toNat))
      let ret := { ret with value := some (toInt32 (dp.value * pw)) }
      let ret ← (if !dp.sign then do
          let v ← ret.value.read
          let v ← liftI (chkInt (-v))
          pure { ret with value := some v }
        else pure ret : I ExponentObj)
      pure { ret with strEnd := some dp.strEnd } : I ExponentObj)
  if el.exponent then pure ret else ret.copy

/-- `struct krosh_result` (krosh.h:509-524). -/
structure KroshObj where
  value : Slot Nat
  strEnd : Slot Nat
  status : Slot Status
  isAccurate : Slot Bool

/-- Its copy constructor. -/
def KroshObj.copy (o : KroshObj) : I KroshObj := do
  let v ← o.value.read
  let p ← o.strEnd.read
  let s ← o.status.read
  let a ← o.isAccurate.read
  pure { value := some v, strEnd := some p, status := some s, isAccurate := some a }

/-- The end of `krosh` (krosh.h:613-616). -/
def kroshEndI (el : Elision) (T : FloatType) (mp : MantissaObj) (ret : KroshObj) : I KroshObj := do
  let sign ← mp.sign.read
  let ret ← (if !sign then do
      let v ← ret.value.read
      pure { ret with value := some (negBits T v) }
    else pure ret : I KroshObj)
  if el.krosh then pure ret else ret.copy

/-- `mp.special == speciality::no && mp.value.mantissa()` (krosh.h:548), with the order of
evaluation of `&&`. -/
def MantissaObj.isNumber (mp : MantissaObj) : I Bool := do
  let sp ← mp.special.read
  if sp = .no then do
    let f ← mp.value.f.read
    pure (decide (f ≠ 0))
  else pure false

/-- `krosh<FloatType>(str)` (krosh.h:540-618). -/
def kroshI [Locale] (el : Elision) (T : FloatType) (mem : List Nat) (str : Nat) : I KroshObj := do
  let ret : KroshObj := { value := none, strEnd := none, status := none, isAccurate := none }
  let mp ← parseMantissaI el T mem str
  if ← mp.isNumber then do
    let ep ← parseExponentI el mem (← mp.strEnd.read)
    -- mp.K += ep.value
    let K ← liftI (chkInt ((← mp.K.read) + (← ep.value.read)))
    let mp := { mp with K := some K }
    let K ← mp.K.read
    if K ≠ 0 ∧ ¬ (T.powLo ≤ K ∧ K ≤ T.powHi) then do
      let ret := if ¬ (T.powLo ≤ K) then { { ret with value := some 0 } with status := some .underflow }
        else { { ret with value := some T.infBits } with status := some .overflow }
      let ret := { ret with strEnd := some (← ep.strEnd.read) }
      let ret := { ret with isAccurate := some true }
      if el.krosh then pure ret else ret.copy
    else do
      let mp ← (if K ≠ 0 then do
          let c ← liftI (cachedPower T K)
          let w ← mp.value.read
          pure { mp with value := .of (w.mul T.W c) }
        else pure mp : I MantissaObj)
      let w ← mp.value.read
      let w ← liftI (w.normalize T.W)
      let v ← w.downsampleI el T
      let ret := { ret with value := some (← v.value.read) }
      let ret := { ret with strEnd := some (← ep.strEnd.read) }
      let ret := { ret with isAccurate := some (← v.isAccurate.read) }
      let ret := { ret with status := some (← v.status.read) }
      kroshEndI el T mp ret
  else do
    let value := match ← mp.special.read with
      | .nan => T.qnanBits
      | .inf => T.infBits
      | .no => 0
    let ret := { ret with value := some value }
    let ret := { ret with strEnd := some (← mp.strEnd.read) }
    let ret := { ret with isAccurate := some true }
    let ret := { ret with status := some .success }
    kroshEndI el T mp ret

/-- `atof<FloatType>(str, str_end, fallback_func)` (atof.h:94-126); `result` has an
initialiser (atof.h:49). -/
def atofI [Locale] (el : Elision) (T : FloatType) (fb : Fallback) (errno : Nat) (mem : List Nat) (str : Nat) :
    I AtofResult := do
  let cr ← kroshI el T mem str
  let strEnd ← cr.strEnd.read
  if strEnd ≠ str then do
    if ← cr.isAccurate.read then do
      let v ← cr.value.read
      let s ← cr.status.read
      pure { value := v, status := s, strEnd := strEnd, errno := errno, fellBack := false }
    else
      let r := fb mem str errno
      pure { value := r.value, status := checkErrno T r.errno r.value, strEnd := r.strEnd,
             errno := r.errno, fellBack := true }
  else
    pure { value := 0, status := .success, strEnd := strEnd, errno := errno, fellBack := false }

/-! ## `ftoa` -/

/-- First loop of `gen` (grisu.h:150-158) with the object `*len`. -/
def genIntLoopI (o : Nat) : (kappa div p1 : Nat) → List Nat → (len : Slot Nat) → I (List Nat × Slot Nat × Nat)
  | 0, _, _, buf, len => .ok (buf, len, 0)
  | kappa + 1, div, p1, buf, len =>
    if p1 ≠ 0 then do
      if div = 0 then .error (.ub .divByZero)
      else do
        -- buffer[(*len)++] = '0' + p1 / div
        let l ← len.read
        let buf ← liftI (wr buf (o + l) ('0'.toNat + p1 / div))
        genIntLoopI o kappa (div / 10) (p1 % div) buf (some (l + 1))
    else .ok (buf, len, kappa + 1)

/-- Second loop of `gen` (grisu.h:175-188) with the object `*len`. -/
def genFracLoopI (T : FloatType) (o s oneF : Nat) (some_ : Bool) :
    (fuel : Nat) → (p2 delta : Nat) → List Nat → (len : Slot Nat) → (kappa : Nat) → I (List Nat × Slot Nat × Nat)
  | 0, _, _, _, _, _ => .error (.ub .noTermination)
  | fuel + 1, p2, delta, buf, len, kappa =>
    if p2 > delta then do
      let p2 := (p2 * 10) % 2 ^ T.W
      let d := (p2 >>> s) % 256
      let (buf, len) ← (if some_ || d != 0 then do
          let l ← len.read
          let buf ← liftI (wr buf (o + l) ('0'.toNat + d))
          pure (buf, some (l + 1))
        else pure (buf, len) : I (List Nat × Slot Nat))
      genFracLoopI T o s oneF some_ fuel (p2 &&& (oneF - 1)) ((delta * 10) % 2 ^ T.W)
        buf len ((kappa + 1) % 256)
    else .ok (buf, len, kappa)

/-- `digit_gen_select<false>::gen(Mp, Mm, buffer, len, K)` (grisu.h:124-191) with the
objects `*len` and `*K`. -/
def digitGenI (T : FloatType) (Mp Mm : DiyFp) (buf : List Nat) (o : Nat) (len : Slot Nat) (K : Slot Int) :
    I (List Nat × Slot Nat × Slot Int) := do
  liftI (assertM (decide (Mp.e ≤ 0)))
  let delta ← liftI (Mp.sub T.W Mm)
  let s := (-Mp.e).toNat
  let oneF ← liftI (raisedBit T.W s)
  let p1 := (Mp.f >>> s) % 2 ^ 32
  let p2 := Mp.f &&& (oneF - 1)
  liftI (assertM (p1 != 0 || p2 != 0))
  -- *len = 0
  let len : Slot Nat := (fun _ => some 0) len
  let closeToDelta := decide (p2 ≤ delta.f)
  if p1 ≠ 0 then do
    let kd := calculateKappaDiv p1
    let (buf, len, kappa) ← genIntLoopI o kd.1 kd.2 p1 buf len
    if closeToDelta then do
      let k ← K.read
      pure (buf, len, some (k + kappa))
    else do
      let l ← len.read
      let buf ← liftI (memset buf (o + l) '0'.toNat kappa)
      let len : Slot Nat := some ((← len.read) + kappa)
      let someWritten := decide ((← len.read) > 0)
      let (buf, len, kappa) ← genFracLoopI T o s oneF someWritten (T.W + 1) p2 delta.f buf len 0
      let k ← K.read
      pure (buf, len, some (k - kappa))
  else do
    let someWritten := decide ((← len.read) > 0)
    let (buf, len, kappa) ← genFracLoopI T o s oneF someWritten (T.W + 1) p2 delta.f buf len 0
    let k ← K.read
    pure (buf, len, some (k - kappa))

/-- `grisu2<alpha, gamma>(v, buffer, length, K)` (grisu.h:262-283) with the objects
`*length` and `*K`. -/
def grisu2I [FpEval] (T : FloatType) (bits : Nat) (buf : List Nat) (o : Nat) (len : Slot Nat) (K : Slot Int) :
    I (List Nat × Slot Nat × Slot Int) := do
  let (wm, wp) ← liftI (boundaries T bits)
  let mk := FpEval.kComp T.alpha wp.e
  let cmk ← liftI (cachedPower T mk)
  let wm := wm.mul T.W cmk
  let wp := wp.mul T.W cmk
  let wm := wm.inc T.W
  let wp := wp.dec T.W
  -- *K = -mk
  let K : Slot Int := (fun _ => some (-mk)) K
  digitGenI T wp wm buf o len K

/-- `ftoa(v, buffer)` (ftoa.h:88-141). -/
def ftoaI [FpEval] (T : FloatType) (bits : Nat) (buf : List Nat) : I (List Nat × Nat) :=
  if isNan T bits ∨ isInf T bits ∨ isZero T bits then
    -- no object without an initialiser there (ftoa.h:90-126)
    liftI (ftoa T bits buf)
  else do
    let buf ← liftI (wr buf 0 '-'.toNat)
    let o := if isNegative T bits then 1 else 0
    -- int len, K;
    let (buf, len, K) ← grisu2I T bits buf o none none
    let (buf, n) ← liftI (prettify decimalScientificThreshold buf o (← len.read) (← K.read))
    pure (buf, (if isNegative T bits then 1 else 0) + n)

end Floaxie
