import Verif.Model.BitOps
import Verif.Model.Tables

/-!
# Model of `diy_fp.h` and `cached_power.h`
-/

namespace Floaxie

open FloatType

/-- `class diy_fp` (diy_fp.h:100-515): `m_f`, `m_e`. -/
structure DiyFp where
  f : Nat
  e : Int
  deriving DecidableEq, Repr

/-- `mantissa_bit_size` (diy_fp.h:142): precision without the hidden bit. -/
def FloatType.mbs (T : FloatType) : Nat := T.p - 1

/-- `exponent_bias` (diy_fp.h:145, 201). -/
def FloatType.bias (T : FloatType) : Int := T.maxExp - 1 + T.mbs

/-- `hidden_bit()` (diy_fp.h:117-120). -/
def FloatType.hiddenBit (T : FloatType) : Nat := 1 <<< (T.p - 1)

/-- `explicit diy_fp(FloatType d)` (diy_fp.h:139-161); `bits` is the result of
`type_punning_cast` (type_punning_cast.h:35-43). -/
def DiyFp.ofFloat (T : FloatType) (bits : Nat) : DiyFp :=
  let mantissaMask := mask T.W T.mbs
  let exponentMask := (2 ^ T.W - 1 - mantissaMask) ^^^ msbValue T.W
  let mf := bits &&& mantissaMask
  let me := (bits &&& exponentMask) >>> T.mbs
  if me != 0 then
    { f := (mf + T.hiddenBit) % 2 ^ T.W, e := (me : Int) - T.bias }
  else
    { f := mf, e := 1 - T.bias }

/-- `is_normalized()` (diy_fp.h:255-259). -/
def DiyFp.isNormalized (W : Nat) (w : DiyFp) : M Bool := do
  assertM (w.f != 0)
  pure ((w.f &&& msbValue W) != 0)

/-- The loop of `normalize()` (diy_fp.h:271-275). -/
def normalizeLoop (W : Nat) : Nat → DiyFp → M DiyFp
  | 0, _ => .error .noTermination
  | n + 1, w =>
    if highestBit W w.f then .ok w
    else normalizeLoop W n { f := (w.f <<< 1) % 2 ^ W, e := w.e - 1 }

/-- `normalize()` (diy_fp.h:267-276). -/
def DiyFp.normalize (W : Nat) (w : DiyFp) : M DiyFp := do
  assertM (w.f != 0)
  normalizeLoop W W w

/-- `operator-=` / `operator-` (diy_fp.h:293-306). -/
def DiyFp.sub (W : Nat) (a b : DiyFp) : M DiyFp := do
  assertM (a.e == b.e && decide (a.f ≥ b.f))
  pure { a with f := (a.f + 2 ^ W - b.f) % 2 ^ W }

/-- `operator*=` / `operator*` (diy_fp.h:320-347). -/
def DiyFp.mul (W : Nat) (x y : DiyFp) : DiyFp :=
  let half := W / 2
  let maskHalf := mask W half
  let a := x.f >>> half
  let b := x.f &&& maskHalf
  let c := y.f >>> half
  let d := y.f &&& maskHalf
  let ac := (a * c) % 2 ^ W
  let bc := (b * c) % 2 ^ W
  let ad := (a * d) % 2 ^ W
  let bd := (b * d) % 2 ^ W
  let tmp := ((bd >>> half) + (ad &&& maskHalf) + (bc &&& maskHalf) + 1 <<< (half - 1)) % 2 ^ W
  { f := (ac + (ad >>> half) + (bc >>> half) + (tmp >>> half)) % 2 ^ W
    e := x.e + y.e + W }

/-- `operator++` (prefix) (diy_fp.h:350-363). -/
def DiyFp.inc (W : Nat) (w : DiyFp) : DiyFp :=
  if w.f < 2 ^ W - 1 then { w with f := (w.f + 1) % 2 ^ W }
  else { f := ((w.f >>> 1) + 1) % 2 ^ W, e := w.e + 1 }

/-- `operator--` (prefix) (diy_fp.h:374-387). -/
def DiyFp.dec (W : Nat) (w : DiyFp) : DiyFp :=
  if w.f > 1 then { w with f := w.f - 1 }
  else { f := ((w.f <<< 1) % 2 ^ W + 2 ^ W - 1) % 2 ^ W, e := w.e - 1 }

/-- Loop of `normalize_from_ieee754()` (diy_fp.h:500-504). -/
def normIeeeLoop (T : FloatType) : Nat → DiyFp → M DiyFp
  | 0, _ => .error .noTermination
  | n + 1, w =>
    if nthBit w.f T.p then .ok w
    else normIeeeLoop T n { f := (w.f <<< 1) % 2 ^ T.W, e := w.e - 1 }

/-- `normalize_from_ieee754()` (diy_fp.h:492-511). -/
def DiyFp.normalizeFromIeee754 (T : FloatType) (w : DiyFp) : M DiyFp := do
  assertM (w.f != 0)
  let w ← normIeeeLoop T (T.W + 1) w
  let eDiff := T.W - T.p - 1
  pure { f := (w.f <<< eDiff) % 2 ^ T.W, e := w.e - eDiff }

/-- Left shift of a word by a run-time `int` amount: undefined unless
`0 ≤ amount < W`. -/
def shlM (W f : Nat) (amount : Int) : M Nat :=
  if 0 ≤ amount ∧ amount < W then .ok ((f <<< amount.toNat) % 2 ^ W) else .error .badShift

/-- `boundaries(FloatType d)` (diy_fp.h:438-463): the pair **(M-, M+)**. -/
def boundaries (T : FloatType) (bits : Nat) : M (DiyFp × DiyFp) := do
  let v := DiyFp.ofFloat T bits
  let pl ← DiyFp.normalizeFromIeee754 T
    { f := ((v.f <<< 1) % 2 ^ T.W + 1) % 2 ^ T.W, e := v.e - 1 }
  let shiftAmount := 1 + (if v.f == T.hiddenBit then 1 else 0)
  let mf := ((v.f <<< shiftAmount) % 2 ^ T.W + 2 ^ T.W - 1) % 2 ^ T.W
  let me := v.e - (shiftAmount : Int)
  let mf ← shlM T.W mf (me - pl.e)
  pure ({ f := mf, e := pl.e }, pl)

/-- Bit pattern of `huge_value<FloatType>()` (huge_val.h:33-52) =
`numeric_limits::infinity()`. -/
def FloatType.infBits (T : FloatType) : Nat := (2 ^ (T.W - T.p) - 1) <<< T.mbs

/-- Bit pattern of `numeric_limits::quiet_NaN()`. -/
def FloatType.qnanBits (T : FloatType) : Nat := T.infBits ||| 1 <<< (T.mbs - 1)

/-- `struct downsample_result` (diy_fp.h:166-175). -/
structure DownsampleResult where
  value : Nat
  status : Status
  isAccurate : Bool
  deriving DecidableEq, Repr

/-- `downsample()` (diy_fp.h:186-236). -/
def DiyFp.downsample (T : FloatType) (w : DiyFp) : M DownsampleResult := do
  assertM (w.f != 0)
  assertM (← w.isNormalized T.W)
  let mantissaMask := mask T.W T.mbs
  let lsbPow := T.W - T.p
  if w.e ≥ T.maxExp then
    pure { value := T.infBits, status := .overflow, isAccurate := true }
  else if w.e + T.W < T.minExp - T.mbs then
    pure { value := 0, status := .underflow, isAccurate := true }
  else do
    let denormExp := positivePart (T.minExp - T.mbs - w.e - 1)
    assertM (decide (denormExp < T.W))
    let shiftAmount := max denormExp lsbPow
    -- unsigned arithmetic modulo 2^64, then narrowed to the W-bit word
    let parts : Nat :=
      ((w.e + shiftAmount + T.bias - (if denormExp > lsbPow then 1 else 0)) % 2 ^ T.W).toNat
    let parts := (parts <<< T.mbs) % 2 ^ T.W
    let round ← roundUp T.W w.f shiftAmount
    let parts := parts |||
      ((((w.f >>> shiftAmount) + (if round.value then 1 else 0)) % 2 ^ T.W) &&& mantissaMask)
    pure { value := parts, status := .success, isAccurate := round.isAccurate }

/-- `cached_power<FloatType>(k)` (cached_power.h:38-46), with the assertion and
the bounds of the table arrays. -/
def cachedPower (T : FloatType) (k : Int) : M DiyFp := do
  assertM (decide (k ≥ -(T.pow0Offset : Int)))
  let index := (T.pow0Offset + k).toNat
  match T.powF[index]?, T.powE[index]? with
  | some f, some e => pure { f := f, e := e }
  | _, _ => .error .badIndex

end Floaxie
