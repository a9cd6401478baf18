import Verif.Model.DiyFp
import Verif.Model.KComp

/-!
# Model of `grisu.h`

A character pointer into the output buffer is an index `o` into the list `buf`.
-/

namespace Floaxie

open FloatType

/-- `calculate_kappa_div(n)` (grisu.h:56-82): pair (number of decimal digits,
corresponding power of ten). -/
def calculateKappaDiv (n : Nat) : Nat × Nat :=
  if n < 10 ^ 1 then (1, 10 ^ 0)
  else if n < 10 ^ 2 then (2, 10 ^ 1)
  else if n < 10 ^ 3 then (3, 10 ^ 2)
  else if n < 10 ^ 4 then (4, 10 ^ 3)
  else if n < 10 ^ 5 then (5, 10 ^ 4)
  else if n < 10 ^ 6 then (6, 10 ^ 5)
  else if n < 10 ^ 7 then (7, 10 ^ 6)
  else if n < 10 ^ 8 then (8, 10 ^ 7)
  else if n < 10 ^ 9 then (9, 10 ^ 8)
  else (10, 10 ^ 9)

/-- `std::numeric_limits<std::uint32_t>::digits10`. -/
def halfDigits10 : Nat := 9

/-- `max_digits<FloatType>()` (grisu.h:89-93). -/
def maxDigits (T : FloatType) : Nat := halfDigits10 + T.digits10

/-- First loop of `gen` (grisu.h:150-158): digits of the integral part `p1`
until it is exhausted.  Returns the buffer, the new length and the remaining
`kappa`. -/
def genIntLoop (o : Nat) : (kappa div p1 : Nat) → List Nat → (len : Nat) → M (List Nat × Nat × Nat)
  | 0, _, _, buf, len => .ok (buf, len, 0)
  | kappa + 1, div, p1, buf, len =>
    if p1 ≠ 0 then do
      if div = 0 then .error .divByZero
      else do
        let buf ← wr buf (o + len) ('0'.toNat + p1 / div)
        genIntLoop o kappa (div / 10) (p1 % div) buf (len + 1)
    else .ok (buf, len, kappa + 1)

/-- Second loop of `gen` (grisu.h:175-188): digits of the fractional part.  The
first argument bounds the number of iterations (the loop itself has no bound).
`s` is `-one.exponent()`, `oneF` is `one.mantissa()`. -/
def genFracLoop (T : FloatType) (o s oneF : Nat) (some : Bool) :
    (fuel : Nat) → (p2 delta : Nat) → List Nat → (len kappa : Nat) → M (List Nat × Nat × Nat)
  | 0, _, _, _, _, _ => .error .noTermination
  | fuel + 1, p2, delta, buf, len, kappa =>
    if p2 > delta then do
      let p2 := (p2 * 10) % 2 ^ T.W
      let d := (p2 >>> s) % 256
      let (buf, len) ← (if some || d != 0 then do
          let buf ← wr buf (o + len) ('0'.toNat + d)
          pure (buf, len + 1)
        else pure (buf, len) : M (List Nat × Nat))
      genFracLoop T o s oneF some fuel (p2 &&& (oneF - 1)) ((delta * 10) % 2 ^ T.W)
        buf len ((kappa + 1) % 256)
    else .ok (buf, len, kappa)

/-- `digit_gen_select<false>::gen(Mp, Mm, buffer, len, K)` (grisu.h:124-191).
Returns the buffer, `*len` and `*K`. -/
def digitGen (T : FloatType) (Mp Mm : DiyFp) (buf : List Nat) (o : Nat) (K : Int) :
    M (List Nat × Nat × Int) := do
  assertM (decide (Mp.e ≤ 0))
  let delta ← Mp.sub T.W Mm
  let s := (-Mp.e).toNat
  let oneF ← raisedBit T.W s
  let p1 := (Mp.f >>> s) % 2 ^ 32
  let p2 := Mp.f &&& (oneF - 1)
  assertM (p1 != 0 || p2 != 0)
  let closeToDelta := decide (p2 ≤ delta.f)
  if p1 ≠ 0 then do
    let kd := calculateKappaDiv p1
    let (buf, len, kappa) ← genIntLoop o kd.1 kd.2 p1 buf 0
    if closeToDelta then pure (buf, len, K + kappa)
    else do
      let buf ← memset buf (o + len) '0'.toNat kappa
      let len := len + kappa
      let (buf, len, kappa) ←
        genFracLoop T o s oneF (decide (len > 0)) (T.W + 1) p2 delta.f buf len 0
      pure (buf, len, K - kappa)
  else do
    let (buf, len, kappa) ← genFracLoop T o s oneF false (T.W + 1) p2 delta.f buf 0 0
    pure (buf, len, K - kappa)

/-- `grisu_parameters<FloatType>.alpha` (grisu.h:296-300). -/
def FloatType.alpha (T : FloatType) : Int := -((T.W / 2 + 3 : Nat) : Int)

/-- `grisu_parameters<FloatType>.gamma` (grisu.h:296-300). -/
def FloatType.gamma (T : FloatType) : Int := -((T.W / 2 : Nat) : Int)

/-- `grisu2<alpha, gamma>(v, buffer, length, K)` (grisu.h:262-283) for any value of
the template parameter `alpha`.  `gamma` occurs only in the static assertions. -/
def grisu2At [FpEval] (alpha : Int) (T : FloatType) (bits : Nat) (buf : List Nat) (o : Nat) :
    M (List Nat × Nat × Int) := do
  let (wm, wp) ← boundaries T bits
  let mk := FpEval.kComp alpha wp.e
  let cmk ← cachedPower T mk
  let wm := wm.mul T.W cmk
  let wp := wp.mul T.W cmk
  let wm := wm.inc T.W
  let wp := wp.dec T.W
  digitGen T wp wm buf o (-mk)

/-- `grisu2<alpha, gamma>(v, buffer, length, K)` (grisu.h:262-283) with the parameters
`ftoa` uses (ftoa.h:133, 138). -/
def grisu2 [FpEval] (T : FloatType) (bits : Nat) (buf : List Nat) (o : Nat) :
    M (List Nat × Nat × Int) :=
  grisu2At T.alpha T bits buf o

/-- Which template arguments the compiler accepts: the static assertions of
`digit_gen` and `grisu2` (grisu.h:232-235, 265-266); for two positive arguments
there is no `digit_gen_select` (grisu.h:95-102, 237). -/
def grisuAccepted (T : FloatType) (alpha gamma : Int) : Bool :=
  decide (T.W / 2 ≤ alpha.natAbs) && decide (T.W / 2 ≤ gamma.natAbs) &&
    !(decide (0 < alpha) && decide (0 < gamma)) && decide (alpha ≤ gamma - 3)

end Floaxie
