import Verif.Model.Atof

/-!
# Model with dynamic memory

The parser once more, with the dynamic memory of the `std::vector` in
`parse_digits` (krosh.h:238-239), the only object of the library's parser that
allocates.  All parsing functions are `noexcept`, so an allocation that fails
(`std::bad_alloc`) ends the program with `std::terminate`.
`Verif/Proof/Alloc.lean` proves that this model refines that of the other files.
-/

namespace Floaxie

open FloatType

/-- How a call can fail to return. -/
inductive Crash where
  | ub (e : UB)
  /-- `std::terminate` -/
  | terminate
  /-- the exception `std::bad_alloc` -/
  | badAlloc
  deriving DecidableEq, Repr

/-- What is asked of the heap. -/
inductive HeapEvent where
  /-- `n` bytes are requested; granted or not -/
  | request (n : Nat) (granted : Bool)
  /-- a block of `n` bytes is given back -/
  | release (n : Nat)
  deriving DecidableEq, Repr

/-- Which requests are granted may depend on everything that was asked of the heap before. -/
abbrev Heap := List HeapEvent → Nat → Bool

/-- Computations that use the heap: the result and the events, in order. -/
def A (α : Type) : Type := List HeapEvent → Except Crash α × List HeapEvent

namespace A

instance : Monad A where
  pure a := fun l => (.ok a, l)
  bind x f := fun l => match x l with
    | (.ok a, l') => f a l'
    | (.error e, l') => (.error e, l')

/-- A computation that does not use the heap. -/
def lift {α : Type} (x : M α) : A α := fun l =>
  match x with
  | .ok a => (.ok a, l)
  | .error e => (.error (.ub e), l)

/-- Requesting `n` bytes in a `noexcept` function. -/
def alloc (H : Heap) (n : Nat) : A Unit := fun l =>
  (if H l n then .ok () else .error .terminate, l ++ [.request n (H l n)])

/-- Giving a block back. -/
def free (n : Nat) : A Unit := fun l => (.ok (), l ++ [.release n])

end A

/-- `push_back` / `insert` of `k` elements (of one byte) at the end of a vector of size `size` and
capacity `cap`: the new capacity.  If there is no room a larger block (at least
twice as large, as usual) is requested and the old one given back. -/
def vecRoom (H : Heap) (size k cap : Nat) : A Nat :=
  if size + k ≤ cap then pure cap
  else do
    A.alloc H (max (2 * cap) (size + k))
    A.free cap
    pure (max (2 * cap) (size + k))

/-- The case `'1'`..`'9'` of `parse_digits` (krosh.h:272-308) with the capacity `cap` of
`parsed_digits`: the `insert` (krosh.h:283) and the `push_back` (krosh.h:293) may grow it. -/
def nonzeroDigitA (H : Heap) (mem : List Nat) (str kappa c : Nat) (st : PState) (cap : Nat) : A (PState × Nat) := do
  let st1 := flushZeros kappa st
  let cap ← vecRoom H st.digits.length (st1.digits.length - st.digits.length) cap
  let st2 ← A.lift (pushDigit mem str kappa c st1)
  let cap ← vecRoom H st1.digits.length (st2.digits.length - st1.digits.length) cap
  pure (st2, cap)

/-- One iteration of the loop (krosh.h:252-361). -/
def parseStepA [Locale] (H : Heap) (T : FloatType) (mem : List Nat) (str : Nat) (st : PState) (cap : Nat) : A (PState × Nat) := do
  let c ← A.lift (rd mem (str + st.pos))
  let (st, cap) ←
    (if '1'.toNat ≤ c ∧ c ≤ '9'.toNat then nonzeroDigitA H mem str T.digits10 c st cap
    else do
      let st ← A.lift (parseSwitch T mem str c st)
      pure (st, cap) : A (PState × Nat))
  pure ({ st with stop := st.stop || decide (st.pos > maximumOffset), pos := st.pos + 1 }, cap)

/-- The loop (krosh.h:250-362). -/
def parseLoopA [Locale] (H : Heap) (T : FloatType) (mem : List Nat) (str : Nat) : (fuel : Nat) → PState → Nat → A (PState × Nat)
  | 0, _, _ => A.lift (.error .noTermination)
  | fuel + 1, st, cap =>
    if st.stop then pure (st, cap)
    else do
      let (st, cap) ← parseStepA H T mem str st cap
      parseLoopA H T mem str fuel st cap

/-- `parse_digits<FloatType>(str)` (krosh.h:231-372): the vector starts empty, without memory;
`reserve(kappa)` requests `kappa` bytes; the destructor gives the block back. -/
def parseDigitsA [Locale] (H : Heap) (T : FloatType) (mem : List Nat) (str : Nat) : A DigitParseResult := do
  A.alloc H T.digits10
  let (st, cap) ← parseLoopA H T mem str (maximumOffset + 3) PState.init T.digits10
  let value ← A.lift (accumulate T.W T.digits10 st.digits.reverse 0 0)
  A.free cap
  pure {
    value := value
    strEnd := str + (st.pos - 1)
    K := toInt32 (subSz st.powGain st.fracCount)
    frac := st.frac
    special := st.special
    sign := st.sign }

/-- `parse_mantissa<FloatType>(str)` (krosh.h:413-454). -/
def parseMantissaA [Locale] (H : Heap) (T : FloatType) (mem : List Nat) (str : Nat) : A MantissaParseResult := do
  let dp ← parseDigitsA H T mem str
  if dp.special = .no then do
    let w ← A.lift (if dp.value ≠ 0 then adjustMantissa T dp.value dp.frac
      else pure { f := dp.value, e := 0 } : M DiyFp)
    pure { value := w, K := dp.K, strEnd := dp.strEnd, special := dp.special, sign := dp.sign }
  else
    pure { value := { f := 0, e := 0 }, K := 0, strEnd := dp.strEnd,
           special := dp.special, sign := dp.sign }

/-- `parse_exponent(str)` (krosh.h:478-501). -/
def parseExponentA [Locale] (H : Heap) (mem : List Nat) (str : Nat) : A ExponentParseResult := do
  let c ← A.lift (rd mem str)
  if c ≠ 'e'.toNat ∧ c ≠ 'E'.toNat then pure { value := 0, strEnd := str }
  else do
    let dp ← parseDigitsA H .float mem (str + 1)
    A.lift do
      let pw ← seqPow 32 exponentDecimalDigits ((dp.K % 2 ^ 64).toNat)
      let v := toInt32 (dp.value * pw)
      let v ← (if !dp.sign then chkInt (-v) else pure v : M Int)
      pure { value := v, strEnd := dp.strEnd }

/-- `krosh<FloatType>(str)` (krosh.h:540-618). -/
def kroshA [Locale] (H : Heap) (T : FloatType) (mem : List Nat) (str : Nat) : A KroshResult := do
  let mp ← parseMantissaA H T mem str
  if mp.special = .no ∧ mp.value.f ≠ 0 then do
    let ep ← parseExponentA H mem mp.strEnd
    A.lift do
      let K ← chkInt (mp.K + ep.value)
      if K ≠ 0 ∧ ¬ (T.powLo ≤ K ∧ K ≤ T.powHi) then
        if ¬ (T.powLo ≤ K) then
          pure { value := 0, status := .underflow, strEnd := ep.strEnd, isAccurate := true }
        else
          pure { value := T.infBits, status := .overflow, strEnd := ep.strEnd, isAccurate := true }
      else do
        let w ← (if K ≠ 0 then do
            let c ← cachedPower T K
            pure (mp.value.mul T.W c)
          else pure mp.value : M DiyFp)
        let w ← w.normalize T.W
        let v ← w.downsample T
        pure { value := if !mp.sign then negBits T v.value else v.value
               strEnd := ep.strEnd, status := v.status, isAccurate := v.isAccurate }
  else
    let value := match mp.special with
      | .nan => T.qnanBits
      | .inf => T.infBits
      | .no => 0
    pure { value := if !mp.sign then negBits T value else value
           strEnd := mp.strEnd, status := .success, isAccurate := true }

/-- `atof<FloatType>(str, str_end, fallback_func)` (atof.h:94-126); what the fallback allocates
itself is not counted. -/
def atofA [Locale] (H : Heap) (T : FloatType) (fb : Fallback) (errno : Nat) (mem : List Nat) (str : Nat) : A AtofResult := do
  let cr ← kroshA H T mem str
  if cr.strEnd ≠ str then
    if cr.isAccurate then
      pure { value := cr.value, status := cr.status, strEnd := cr.strEnd,
             errno := errno, fellBack := false }
    else
      let r := fb mem str errno
      pure { value := r.value, status := checkErrno T r.errno r.value, strEnd := r.strEnd,
             errno := r.errno, fellBack := true }
  else
    pure { value := 0, status := .success, strEnd := cr.strEnd, errno := errno, fellBack := false }

end Floaxie
