import Verif.Model.Atof

/-!
# Model in single steps

The functions that touch memory, written once more as programs that perform one
character access at a time, for statements about threads: between any two
accesses of one call other threads may run.  `Verif/Proof/Steps.lean` proves that
these programs, run alone, do what the functions of the other model files do.

Addresses are relative to the pointer passed to the call.
-/

namespace Floaxie

/-- A program performing character accesses. -/
inductive Prog (α : Type) where
  /-- finished with a result -/
  | ret (a : α)
  /-- undefined behaviour other than a wild access -/
  | fail (e : UB)
  /-- read the character at `i` and go on with it -/
  | load (i : Nat) (k : Nat → Prog α)
  /-- write `c` to `i` and go on -/
  | store (i c : Nat) (k : Prog α)

namespace Prog

/-- Sequencing. -/
def bind {α β : Type} (p : Prog α) (f : α → Prog β) : Prog β :=
  match p with
  | ret a => f a
  | fail e => fail e
  | load i k => load i fun c => (k c).bind f
  | store i c k => store i c (k.bind f)

instance : Monad Prog where
  pure := ret
  bind := bind

/-- A computation without memory accesses. -/
def lift {α : Type} : M α → Prog α
  | .ok a => ret a
  | .error e => fail e

/-- `mem[i]` -/
def rd (i : Nat) : Prog Nat := load i ret

/-- `buf[i] = c` -/
def wr (i c : Nat) : Prog Unit := store i c (ret ())

/-- `wrap::memset(buf + i, c, n)` (memwrap.h:36-44), character by character. -/
def memset (i c : Nat) : (n : Nat) → Prog Unit
  | 0 => ret ()
  | n + 1 => store i c (memset (i + 1) c n)

/-- Reading `n` characters. -/
def loads (i : Nat) : (n : Nat) → Prog (List Nat)
  | 0 => ret []
  | n + 1 => load i fun c => (loads (i + 1) n).bind fun cs => ret (c :: cs)

/-- Writing a list of characters. -/
def stores (i : Nat) : List Nat → Prog Unit
  | [] => ret ()
  | c :: cs => store i c (stores (i + 1) cs)

/-- `wrap::memmove(buf + dst, buf + src, n)` (memwrap.h:53-61): "as if" through a
temporary array. -/
def memmove (dst src n : Nat) : Prog Unit := (loads src n).bind fun cs => stores dst cs

end Prog

/-! ## Printing -/

/-- First loop of `gen` (grisu.h:150-158). -/
def genIntLoopP (o : Nat) : (kappa div p1 len : Nat) → Prog (Nat × Nat)
  | 0, _, _, len => .ret (len, 0)
  | kappa + 1, div, p1, len =>
    if p1 ≠ 0 then
      if div = 0 then .fail .divByZero
      else do
        Prog.wr (o + len) ('0'.toNat + p1 / div)
        genIntLoopP o kappa (div / 10) (p1 % div) (len + 1)
    else .ret (len, kappa + 1)

/-- Second loop of `gen` (grisu.h:175-188). -/
def genFracLoopP (T : FloatType) (o s oneF : Nat) (some : Bool) :
    (fuel p2 delta len kappa : Nat) → Prog (Nat × Nat)
  | 0, _, _, _, _ => .fail .noTermination
  | fuel + 1, p2, delta, len, kappa =>
    if p2 > delta then do
      let p2 := (p2 * 10) % 2 ^ T.W
      let d := (p2 >>> s) % 256
      let len ← (if some || d != 0 then do
          Prog.wr (o + len) ('0'.toNat + d)
          pure (len + 1)
        else pure len : Prog Nat)
      genFracLoopP T o s oneF some fuel (p2 &&& (oneF - 1)) ((delta * 10) % 2 ^ T.W)
        len ((kappa + 1) % 256)
    else .ret (len, kappa)

/-- `digit_gen_select<false>::gen(Mp, Mm, buffer, len, K)` (grisu.h:124-191). -/
def digitGenP (T : FloatType) (Mp Mm : DiyFp) (o : Nat) (K : Int) : Prog (Nat × Int) := do
  Prog.lift (assertM (decide (Mp.e ≤ 0)))
  let delta ← Prog.lift (Mp.sub T.W Mm)
  let s := (-Mp.e).toNat
  let oneF ← Prog.lift (raisedBit T.W s)
  let p1 := (Mp.f >>> s) % 2 ^ 32
  let p2 := Mp.f &&& (oneF - 1)
  Prog.lift (assertM (p1 != 0 || p2 != 0))
  let closeToDelta := decide (p2 ≤ delta.f)
  if p1 ≠ 0 then do
    let kd := calculateKappaDiv p1
    let (len, kappa) ← genIntLoopP o kd.1 kd.2 p1 0
    if closeToDelta then pure (len, K + kappa)
    else do
      Prog.memset (o + len) '0'.toNat kappa
      let len := len + kappa
      let (len, kappa) ← genFracLoopP T o s oneF (decide (len > 0)) (T.W + 1) p2 delta.f len 0
      pure (len, K - kappa)
  else do
    let (len, kappa) ← genFracLoopP T o s oneF false (T.W + 1) p2 delta.f 0 0
    pure (len, K - kappa)

/-- `grisu2<alpha, gamma>(v, buffer, length, K)` (grisu.h:262-283). -/
def grisu2S [FpEval] (T : FloatType) (bits o : Nat) : Prog (Nat × Int) := do
  let (wm, wp) ← Prog.lift (boundaries T bits)
  let mk := FpEval.kComp T.alpha wp.e
  let cmk ← Prog.lift (cachedPower T mk)
  let wm := wm.mul T.W cmk
  let wp := wp.mul T.W cmk
  let wm := wm.inc T.W
  let wp := wp.dec T.W
  digitGenP T wp wm o (-mk)

/-- `fill_exponent(K, buffer)` (prettify.h:88-102). -/
def fillExponentP (K o : Nat) : Prog Nat := do
  let hundreds := (K / 100) % 256
  let K := K % 100
  Prog.wr o ('0'.toNat + hundreds)
  let o := o + (if hundreds > 0 then 1 else 0)
  match digitsLut[K * 2]?, digitsLut[K * 2 + 1]? with
  | some d0, some d1 => do
    Prog.wr o d0
    Prog.wr (o + 1) d1
    Prog.wr (o + 2) 0
    pure (2 + (if hundreds > 0 then 1 else 0))
  | _, _ => .fail .badIndex

/-- `print_scientific(buffer, len, dot_pos)` (prettify.h:119-136). -/
def printScientificP (o len : Nat) (dotPos : Int) : Prog Nat := do
  let K := dotPos - 1
  let o' ← (if len > 1 then do
      Prog.memmove (o + 2) (o + 1) (len - 1)
      Prog.wr (o + 1) '.'.toNat
      pure (o + len)
    else pure o : Prog Nat)
  Prog.wr (o' + 1) 'e'.toNat
  Prog.wr (o' + 2) '-'.toNat
  let o' := o' + (if K < 0 then 1 else 0)
  let n ← fillExponentP K.natAbs (o' + 2)
  pure (len + (if len > 1 then 1 else 0) + 1 + (if K < 0 then 1 else 0) + n)

/-- `print_decimal(buffer, len, k)` (prettify.h:152-174). -/
def printDecimalP (o len : Nat) (k : Int) : Prog Nat := do
  let dotPos : Int := (len : Int) + k
  let actualDotPos : Nat := if dotPos > 0 then dotPos.toNat else 1
  let leftOffset : Nat := if dotPos > 0 then 0 else (2 - dotPos).toNat
  let rightOffset := positivePart k
  let leftShiftSrc := positivePart dotPos
  let leftShiftDest := if dotPos > 0 then leftShiftSrc + (if k < 0 then 1 else 0) else leftOffset
  let leftShiftLen := positivePart ((len : Int) - (leftShiftSrc : Int))
  let termPos := len + rightOffset + (leftShiftDest - leftShiftSrc)
  Prog.memmove (o + leftShiftDest) (o + leftShiftSrc) leftShiftLen
  Prog.memset o '0'.toNat leftOffset
  Prog.memset (o + len) '0'.toNat rightOffset
  Prog.wr (o + actualDotPos) '.'.toNat
  Prog.wr (o + termPos) 0
  pure termPos

/-- `prettify<decimal_scientific_threshold>(buffer, len, k)` (prettify.h:195-218). -/
def prettifyP (threshold o len : Nat) (k : Int) : Prog Nat :=
  let dotPos : Int := (len : Int) + k
  let fieldWidth : Nat := ((max dotPos (-k)) % 2 ^ 64).toNat
  match chooseFormat threshold fieldWidth with
  | .decimal => printDecimalP o len k
  | .scientific => printScientificP o len dotPos

/-- `ftoa(v, buffer)` (ftoa.h:88-141). -/
def ftoaP [FpEval] (T : FloatType) (bits : Nat) : Prog Nat :=
  if isNan T bits then do
    Prog.stores 0 ['n'.toNat, 'a'.toNat, 'n'.toNat, 0]
    pure 3
  else if isInf T bits then
    if !isNegative T bits then do
      Prog.stores 0 ['i'.toNat, 'n'.toNat, 'f'.toNat, 0]
      pure 3
    else do
      Prog.stores 0 ['-'.toNat, 'i'.toNat, 'n'.toNat, 'f'.toNat, 0]
      pure 4
  else if isZero T bits then do
    Prog.stores 0 ['0'.toNat, 0]
    pure 1
  else do
    Prog.wr 0 '-'.toNat
    let o := if isNegative T bits then 1 else 0
    let (len, K) ← grisu2S T bits o
    let n ← prettifyP decimalScientificThreshold o len K
    pure ((if isNegative T bits then 1 else 0) + n)

/-! ## Parsing -/

/-- The `do ... while` loop of `eat_nan` (krosh.h:74-78), with an iteration budget. -/
def eatNanLoopP [Locale] : (fuel cp : Nat) → Prog Nat
  | 0, _ => .fail .noTermination
  | fuel + 1, cp => do
    let c ← Prog.rd cp
    if ('0'.toNat ≤ c ∧ c ≤ '9'.toNat) ∨
       ('a'.toNat ≤ Locale.lower c ∧ Locale.lower c ≤ 'z'.toNat) ∨ c = '_'.toNat then
      eatNanLoopP fuel (cp + 1)
    else pure cp

/-- `eat_nan(str)` (krosh.h:62-86). -/
def eatNanP [Locale] (fuel str : Nat) : Prog Nat := do
  let c0 ← Prog.rd str
  if c0 = 'a'.toNat ∨ c0 = 'A'.toNat then do
    let c1 ← Prog.rd (str + 1)
    if c1 = 'n'.toNat ∨ c1 = 'N'.toNat then do
      let c2 ← Prog.rd (str + 2)
      if c2 = '('.toNat then do
        let cp ← eatNanLoopP fuel (str + 3)
        let c ← Prog.rd cp
        if c = ')'.toNat then pure (cp - str + 1) else pure 2
      else pure 2
    else pure 0
  else pure 0

/-- The suffix loop of `eat_inf` (krosh.h:114-118). -/
def eatInfLoopP [Locale] : (suffix : List Nat) → (cp : Nat) → Prog (Option Nat)
  | [], cp => pure (some cp)
  | x :: xs, cp => do
    let c ← Prog.rd cp
    if Locale.lower c = x then eatInfLoopP xs (cp + 1) else pure none

/-- `eat_inf(str)` (krosh.h:98-126). -/
def eatInfP [Locale] (str : Nat) : Prog Nat := do
  let c0 ← Prog.rd str
  if c0 = 'n'.toNat ∨ c0 = 'N'.toNat then do
    let c1 ← Prog.rd (str + 1)
    if c1 = 'f'.toNat ∨ c1 = 'F'.toNat then do
      let c2 ← Prog.rd (str + 2)
      if c2 = 'i'.toNat ∨ c2 = 'I'.toNat then do
        match ← eatInfLoopP ['n'.toNat, 'i'.toNat, 't'.toNat, 'y'.toNat] (str + 3) with
        | some cp => pure (cp - str)
        | none => pure 2
      else pure 2
    else pure 0
  else pure 0

/-- First loop of `extract_fraction_digits` (krosh.h:152-159). -/
def fractionDigitsP : (n pos : Nat) → Prog (List Nat)
  | 0, _ => pure []
  | n + 1, pos => do
    let c ← Prog.rd pos
    if '0'.toNat ≤ c ∧ c ≤ '9'.toNat then do
      let ds ← fractionDigitsP n (pos + 1)
      pure ((c - '0'.toNat) :: ds)
    else pure (List.replicate (n + 1) 0)

/-- `extract_fraction_digits<kappa>(str)` (krosh.h:144-167). -/
def extractFractionDigitsP (kappa pos : Nat) : Prog Nat := do
  let ds ← fractionDigitsP kappa pos
  Prog.lift (accumulate 32 kappa ds.reverse 0 0)

/-- Second part of case `'1'`..`'9'` (krosh.h:291-308). -/
def pushDigitP (str kappa c : Nat) (st : PState) : Prog PState :=
  if st.digits.length < kappa then
    pure { st with
      digits := st.digits ++ [c - '0'.toNat]
      fracCount := st.fracCount + (if st.dotSet then 1 else 0) }
  else do
    let st ← (if !st.fracCalculated then do
        let suffix := subSz (st.digits.length + st.zeroLen) kappa
        if suffix > str + st.pos then .fail .oobRead
        else do
          let tail ← extractFractionDigitsP fractionDecimalDigits (str + st.pos - suffix)
          pure { st with
            frac := convertNumerator fractionDecimalDigits fractionBinaryDigits tail % 256
            fracCalculated := true }
      else pure st : Prog PState)
    pure { st with powGain := st.powGain + (if st.dotSet then 0 else 1) }

/-- The `switch` of `parse_digits` (krosh.h:253-357). -/
def parseSwitchP [Locale] (T : FloatType) (fuel str c : Nat) (st : PState) : Prog PState :=
  if c = '0'.toNat then pure (stepZero st)
  else if '1'.toNat ≤ c ∧ c ≤ '9'.toNat then
    pushDigitP str T.digits10 c (flushZeros T.digits10 st)
  else if c = '.'.toNat then
    pure { st with stop := st.dotSet, dotSet := true }
  else if c = 'n'.toNat ∨ c = 'N'.toNat then
    if st.pos = (if st.signSet then 1 else 0) then do
      let eaten ← eatNanP fuel (str + st.pos + 1)
      pure { st with
        pos := st.pos + (eaten + 1)
        special := if eaten ≠ 0 then .nan else st.special
        stop := true }
    else pure { st with stop := true }
  else if c = 'i'.toNat ∨ c = 'I'.toNat then
    if st.pos = (if st.signSet then 1 else 0) then do
      let eaten ← eatInfP (str + st.pos + 1)
      pure { st with
        pos := st.pos + (eaten + 1)
        special := if eaten ≠ 0 then .inf else st.special
        stop := true }
    else pure { st with stop := true }
  else if (c = '-'.toNat ∨ c = '+'.toNat) ∧ st.pos = 0 then
    pure { st with sign := decide ('-'.toNat ≠ c), signSet := true }
  else pure { st with stop := true }

/-- One iteration of the loop (krosh.h:252-361). -/
def parseStepP [Locale] (T : FloatType) (fuel str : Nat) (st : PState) : Prog PState := do
  let c ← Prog.rd (str + st.pos)
  let st ← parseSwitchP T fuel str c st
  pure { st with
    stop := st.stop || decide (st.pos > maximumOffset)
    pos := st.pos + 1 }

/-- The loop `while (!go_to_beach)` (krosh.h:250-362), with an iteration budget. -/
def parseLoopP [Locale] (T : FloatType) (fuel str : Nat) : (budget : Nat) → PState → Prog PState
  | 0, _ => .fail .noTermination
  | budget + 1, st =>
    if st.stop then pure st
    else do
      let st ← parseStepP T fuel str st
      parseLoopP T fuel str budget st

/-- `parse_digits<FloatType>(str)` (krosh.h:231-372). -/
def parseDigitsP [Locale] (T : FloatType) (fuel str : Nat) : Prog DigitParseResult := do
  let st ← parseLoopP T fuel str (maximumOffset + 3) PState.init
  let value ← Prog.lift (accumulate T.W T.digits10 st.digits.reverse 0 0)
  pure {
    value := value
    strEnd := str + (st.pos - 1)
    K := toInt32 (subSz st.powGain st.fracCount)
    frac := st.frac
    special := st.special
    sign := st.sign }

/-- `parse_mantissa<FloatType>(str)` (krosh.h:413-454). -/
def parseMantissaP [Locale] (T : FloatType) (fuel str : Nat) : Prog MantissaParseResult := do
  let dp ← parseDigitsP T fuel str
  if dp.special = .no then do
    let w ← Prog.lift (if dp.value ≠ 0 then adjustMantissa T dp.value dp.frac
      else pure { f := dp.value, e := 0 } : M DiyFp)
    pure { value := w, K := dp.K, strEnd := dp.strEnd, special := dp.special, sign := dp.sign }
  else
    pure { value := { f := 0, e := 0 }, K := 0, strEnd := dp.strEnd,
           special := dp.special, sign := dp.sign }

/-- `parse_exponent(str)` (krosh.h:478-501). -/
def parseExponentP [Locale] (fuel str : Nat) : Prog ExponentParseResult := do
  let c ← Prog.rd str
  if c ≠ 'e'.toNat ∧ c ≠ 'E'.toNat then pure { value := 0, strEnd := str }
  else do
    let dp ← parseDigitsP .float fuel (str + 1)
    let pw ← Prog.lift (seqPow 32 exponentDecimalDigits ((dp.K % 2 ^ 64).toNat))
    let v := toInt32 (dp.value * pw)
    let v ← Prog.lift (if !dp.sign then chkInt (-v) else pure v : M Int)
    pure { value := v, strEnd := dp.strEnd }

/-- `krosh<FloatType>(str)` (krosh.h:540-618). -/
def kroshP [Locale] (T : FloatType) (fuel str : Nat) : Prog KroshResult := do
  let mp ← parseMantissaP T fuel str
  if mp.special = .no ∧ mp.value.f ≠ 0 then do
    let ep ← parseExponentP fuel mp.strEnd
    let K ← Prog.lift (chkInt (mp.K + ep.value))
    if K ≠ 0 ∧ ¬ (T.powLo ≤ K ∧ K ≤ T.powHi) then
      if ¬ (T.powLo ≤ K) then
        pure { value := 0, status := .underflow, strEnd := ep.strEnd, isAccurate := true }
      else
        pure { value := T.infBits, status := .overflow, strEnd := ep.strEnd, isAccurate := true }
    else do
      let w ← Prog.lift (if K ≠ 0 then do
          let c ← cachedPower T K
          pure (mp.value.mul T.W c)
        else pure mp.value : M DiyFp)
      let w ← Prog.lift (w.normalize T.W)
      let v ← Prog.lift (w.downsample T)
      pure { value := if !mp.sign then negBits T v.value else v.value
             strEnd := ep.strEnd, status := v.status, isAccurate := v.isAccurate }
  else
    let value := match mp.special with
      | .nan => T.qnanBits
      | .inf => T.infBits
      | .no => 0
    pure { value := if !mp.sign then negBits T value else value
           strEnd := mp.strEnd, status := .success, isAccurate := true }

/-- `atof<FloatType>(str, str_end, fallback_func)` (atof.h:94-126); the fallback,
too, reads the string character by character. -/
def atofP [Locale] (T : FloatType) (fb : (errno : Nat) → Prog FallbackResult) (errno fuel : Nat) : Prog AtofResult := do
  let cr ← kroshP T fuel 0
  if cr.strEnd ≠ 0 then
    if cr.isAccurate then
      pure { value := cr.value, status := cr.status, strEnd := cr.strEnd,
             errno := errno, fellBack := false }
    else do
      let r ← fb errno
      pure { value := r.value, status := checkErrno T r.errno r.value, strEnd := r.strEnd,
             errno := r.errno, fellBack := true }
  else
    pure { value := 0, status := .success, strEnd := cr.strEnd, errno := errno, fellBack := false }

end Floaxie
