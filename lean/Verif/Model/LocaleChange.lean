import Verif.Model.Atof

/-!
# Model of the parser while the global locale changes

The functions of `krosh.h` and `atof.h` that call `std::tolower(c, std::locale())`, and those that
call them, once more: here every one of these calls may find another global locale - one that another
thread, or a signal handler, has set in the meantime (`std::locale::global`).  Everything else is as in
`Model/Krosh` and `Model/Atof`; with a locale that does not change the functions are the ones there
(`Vary.atof_const`).
-/

namespace Floaxie

open FloatType

/-- The global locale found by the `i`-th evaluation (0 or 1) of `std::tolower` on the character at
position `p` of the memory (krosh.h:76, twice; 114).  During one call of `atof` no position is visited twice by
these loops, so that this describes every history of the global locale during the call.  Characters are compared
as numbers here; where `char` is signed and the lower case of a character is negative, take 0 for it: no
comparison made tells 0 and a negative character apart. -/
abbrev Seen := (p : Nat) → (i : Nat) → Locale

namespace Vary

/-- The `do ... while` loop of `eat_nan` (krosh.h:74-78): the position of the
first character at or after `cp` that is not an n-char. -/
def eatNanLoop (V : Seen) (mem : List Nat) : (fuel : Nat) → (cp : Nat) → M Nat
  | 0, _ => .error .noTermination
  | fuel + 1, cp => do
    let c ← rd mem cp
    if ('0'.toNat ≤ c ∧ c ≤ '9'.toNat) ∨
       ('a'.toNat ≤ (V cp 0).lower c ∧ (V cp 1).lower c ≤ 'z'.toNat) ∨ c = '_'.toNat then
      eatNanLoop V mem fuel (cp + 1)
    else pure cp

/-- `eat_nan(str)` (krosh.h:62-86): number of characters eaten. -/
def eatNan (V : Seen) (mem : List Nat) (str : Nat) : M Nat := do
  let c0 ← rd mem str
  if c0 = 'a'.toNat ∨ c0 = 'A'.toNat then do
    let c1 ← rd mem (str + 1)
    if c1 = 'n'.toNat ∨ c1 = 'N'.toNat then do
      let c2 ← rd mem (str + 2)
      if c2 = '('.toNat then do
        let cp ← eatNanLoop V mem (mem.length + 1) (str + 3)
        let c ← rd mem cp
        if c = ')'.toNat then pure (cp - str + 1) else pure 2
      else pure 2
    else pure 0
  else pure 0

/-- The suffix loop of `eat_inf` (krosh.h:114-118): returns the position reached
if all of `suffix` matched, `none` otherwise. -/
def eatInfLoop (V : Seen) (mem : List Nat) : (suffix : List Nat) → (cp : Nat) → M (Option Nat)
  | [], cp => pure (some cp)
  | x :: xs, cp => do
    let c ← rd mem cp
    if (V cp 0).lower c = x then eatInfLoop V mem xs (cp + 1) else pure none

/-- `eat_inf(str)` (krosh.h:98-126): number of characters eaten. -/
def eatInf (V : Seen) (mem : List Nat) (str : Nat) : M Nat := do
  let c0 ← rd mem str
  if c0 = 'n'.toNat ∨ c0 = 'N'.toNat then do
    let c1 ← rd mem (str + 1)
    if c1 = 'f'.toNat ∨ c1 = 'F'.toNat then do
      let c2 ← rd mem (str + 2)
      if c2 = 'i'.toNat ∨ c2 = 'I'.toNat then do
        match ← eatInfLoop V mem ['n'.toNat, 'i'.toNat, 't'.toNat, 'y'.toNat] (str + 3) with
        | some cp => pure (cp - str)
        | none => pure 2
      else pure 2
    else pure 0
  else pure 0

/-- The `switch` of `parse_digits` (krosh.h:253-357); `str` is the index of the
first character of the string. -/
def parseSwitch (V : Seen) (T : FloatType) (mem : List Nat) (str : Nat) (c : Nat) (st : PState) : M PState :=
  if c = '0'.toNat then pure (stepZero st)
  else if '1'.toNat ≤ c ∧ c ≤ '9'.toNat then
    pushDigit mem str T.digits10 c (flushZeros T.digits10 st)
  else if c = '.'.toNat then
    pure { st with stop := st.dotSet, dotSet := true }
  else if c = 'n'.toNat ∨ c = 'N'.toNat then
    if st.pos = (if st.signSet then 1 else 0) then do
      let eaten ← eatNan V mem (str + st.pos + 1)
      pure { st with
        pos := st.pos + (eaten + 1)
        special := if eaten ≠ 0 then .nan else st.special
        stop := true }
    else pure { st with stop := true }
  else if c = 'i'.toNat ∨ c = 'I'.toNat then
    if st.pos = (if st.signSet then 1 else 0) then do
      let eaten ← eatInf V mem (str + st.pos + 1)
      pure { st with
        pos := st.pos + (eaten + 1)
        special := if eaten ≠ 0 then .inf else st.special
        stop := true }
    else pure { st with stop := true }
  else if (c = '-'.toNat ∨ c = '+'.toNat) ∧ st.pos = 0 then
    pure { st with sign := decide ('-'.toNat ≠ c), signSet := true }
  else pure { st with stop := true }

/-- One iteration of the loop (krosh.h:252-361). -/
def parseStep (V : Seen) (T : FloatType) (mem : List Nat) (str : Nat) (st : PState) : M PState := do
  let c ← rd mem (str + st.pos)
  let st ← parseSwitch V T mem str c st
  pure { st with
    stop := st.stop || decide (st.pos > maximumOffset)
    pos := st.pos + 1 }

/-- The loop `while (!go_to_beach)` (krosh.h:250-362), with an iteration budget. -/
def parseLoop (V : Seen) (T : FloatType) (mem : List Nat) (str : Nat) : (fuel : Nat) → PState → M PState
  | 0, _ => .error .noTermination
  | fuel + 1, st =>
    if st.stop then pure st
    else do
      let st ← parseStep V T mem str st
      parseLoop V T mem str fuel st

/-- `parse_digits<FloatType>(str)` (krosh.h:231-372). -/
def parseDigits (V : Seen) (T : FloatType) (mem : List Nat) (str : Nat) : M DigitParseResult := do
  let st ← parseLoop V T mem str (maximumOffset + 3) PState.init
  let value ← accumulate T.W T.digits10 st.digits.reverse 0 0
  pure {
    value := value
    strEnd := str + (st.pos - 1)
    K := toInt32 (subSz st.powGain st.fracCount)
    frac := st.frac
    special := st.special
    sign := st.sign }

/-- `parse_mantissa<FloatType>(str)` (krosh.h:413-454).  `value` and `K` are
left uninitialised by the code for special values; they are not read then, and
the model stores zeros. -/
def parseMantissa (V : Seen) (T : FloatType) (mem : List Nat) (str : Nat) : M MantissaParseResult := do
  let dp ← parseDigits V T mem str
  if dp.special = .no then do
    let w ← (if dp.value ≠ 0 then adjustMantissa T dp.value dp.frac
      else pure { f := dp.value, e := 0 } : M DiyFp)
    pure { value := w, K := dp.K, strEnd := dp.strEnd, special := dp.special, sign := dp.sign }
  else
    pure { value := { f := 0, e := 0 }, K := 0, strEnd := dp.strEnd,
           special := dp.special, sign := dp.sign }

/-- `parse_exponent(str)` (krosh.h:478-501).  `digit_parts.value` is a
`uint32_t`, `seq_pow<int, 10, 3>` an `int`: the product is computed modulo 2^32
and converted to `int`; a negative `digit_parts.K` becomes a huge index. -/
def parseExponent (V : Seen) (mem : List Nat) (str : Nat) : M ExponentParseResult := do
  let c ← rd mem str
  if c ≠ 'e'.toNat ∧ c ≠ 'E'.toNat then pure { value := 0, strEnd := str }
  else do
    let dp ← parseDigits V .float mem (str + 1)
    let pw ← seqPow 32 exponentDecimalDigits ((dp.K % 2 ^ 64).toNat)
    let v := toInt32 (dp.value * pw)
    let v ← (if !dp.sign then chkInt (-v) else pure v : M Int)
    pure { value := v, strEnd := dp.strEnd }

/-- `krosh<FloatType>(str)` (krosh.h:540-618). -/
def krosh (V : Seen) (T : FloatType) (mem : List Nat) (str : Nat) : M KroshResult := do
  let mp ← parseMantissa V T mem str
  if mp.special = .no ∧ mp.value.f ≠ 0 then do
    let ep ← parseExponent V mem mp.strEnd
    let K ← chkInt (mp.K + ep.value)
    if K ≠ 0 ∧ ¬ (T.powLo ≤ K ∧ K ≤ T.powHi) then
      -- early return: the sign is not applied (krosh.h:565-582)
      if ¬ (T.powLo ≤ K) then
        pure { value := 0, status := .underflow, strEnd := ep.strEnd, isAccurate := true }
      else
        pure { value := T.infBits, status := .overflow, strEnd := ep.strEnd, isAccurate := true }
    else do
      let w ← (if K ≠ 0 then do
          let c ← cachedPower T K
          pure (mp.value.mul T.W c)
        else pure mp.value : M DiyFp)
      let w ← w.normalize T.W
      let v ← w.downsample T
      pure { value := if !mp.sign then negBits T v.value else v.value
             strEnd := ep.strEnd, status := v.status, isAccurate := v.isAccurate }
  else
    let value := match mp.special with
      | .nan => T.qnanBits
      | .inf => T.infBits
      | .no => 0
    pure { value := if !mp.sign then negBits T value else value
           strEnd := mp.strEnd, status := .success, isAccurate := true }

/-- `atof<FloatType>(str, str_end, fallback_func)` (atof.h:94-126). -/
def atof (V : Seen) (T : FloatType) (fb : Fallback) (errno : Nat) (mem : List Nat) (str : Nat) :
    M AtofResult := do
  let cr ← krosh V T mem str
  if cr.strEnd ≠ str then
    if cr.isAccurate then
      pure { value := cr.value, status := cr.status, strEnd := cr.strEnd,
             errno := errno, fellBack := false }
    else
      let r := fb mem str errno
      pure { value := r.value, status := checkErrno T r.errno r.value, strEnd := r.strEnd,
             errno := r.errno, fellBack := true }
  else
    pure { value := 0, status := .success, strEnd := cr.strEnd, errno := errno, fellBack := false }

end Vary

end Floaxie
