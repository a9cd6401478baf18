import Verif.Model.Atof

/-!
# Model: `atof` with a fallback of any kind and with or without end pointer

`Model/Atof` takes the fallback for a function of memory, position and `errno` that always
returns and always reports an end.  A callable given by the user may do anything else: throw,
not return (`longjmp`, `std::exit`, an endless loop), have effects, not look at `str_end`, or be a null pointer.
-/

namespace Floaxie

/-- What the caller and the fallback can see: the memory with the string, `errno`, the object `*str_end` (it need not
have a value before the call; with a null `str_end` it is some object that the caller does not pass), everything else. -/
structure World (σ : Type) where
  mem : List Nat
  errno : Nat
  endCell : Option Nat
  other : σ

/-- A callable object: from the arguments `str` and `str_end` (here: whether it is not null) and the world, it returns a
value or throws something (`ε`), in a new world; or it does not return (`none`). -/
abbrev Callable (σ ε : Type) := (str : Nat) → (endGiven : Bool) → World σ → Option (Except ε Nat × World σ)

/-- Undefined behaviour: that of `Model/Base`, or a call through a null function pointer. -/
inductive CallFault
  | ub (u : UB)
  | nullCall
  deriving DecidableEq, Repr

/-- `atof<FloatType>(str, str_end, fallback_func)` (atof.h:94-126), statement by statement; `fb = none` is a null
pointer, `endGiven = false` a null `str_end`.  State that a function object carries inside itself is copied with it (the
parameter is by value), so it is not in the world; state it refers to is (`World.other`). -/
def atofWith [Locale] {σ ε : Type} (T : FloatType) (fb : Option (Callable σ ε)) (str : Nat) (endGiven : Bool) (w : World σ) :
    Except CallFault (Option (Except ε (Nat × Status) × World σ)) := do
  let cr ← (krosh T w.mem str).mapError .ub
  let rest (value : Nat) (status : Status) : Option (Except ε (Nat × Status) × World σ) :=
    some (.ok (value, status), if endGiven then { w with endCell := some cr.strEnd } else w)
  if cr.strEnd ≠ str then
    if cr.isAccurate then pure (rest cr.value cr.status)
    else
      match fb with
      | none => .error .nullCall
      | some f =>
        match f str endGiven w with
        | none => pure none
        | some (.error e, w') => pure (some (.error e, w'))
        | some (.ok v, w') => pure (some (.ok (v, checkErrno T w'.errno v), w'))
  else pure (rest 0 .success)

/-- The overload for `nullptr` (atof.h:137-140). -/
def atofNullptr [Locale] {σ ε : Type} (T : FloatType) (fb : Option (Callable σ ε)) (str : Nat) (w : World σ) :
    Except CallFault (Option (Except ε (Nat × Status) × World σ)) :=
  atofWith T fb str false w

end Floaxie
